import Verif.Props.Renderers
/-
The values drawn by the renderer of the cart-pole environment, for all schedules.
-/
namespace Verif.Renderers.CartPole

/-- the position and the angle after numbers of calls, with zeros at first -/
def posAt (ds : List Data) (k : ℕ) : ℝ := (dataAt ds k).pos
def angleAt (ds : List Data) (k : ℕ) : ℝ := (dataAt ds k).angle

/-- the client is before step `r` of the call `k`; the position is of the call `i`, the angle of the call `j` -/
def Times (ds : List Data) (s : State) (i j : ℕ) : Prop := ∃ k r, (r < 6 ∧ k < ds.length ∨ r = 0 ∧ k = ds.length) ∧ s.client = ((ds.drop k).flatMap compile).drop r ∧
  i = (6 * k + r + 2) / 6 ∧ j = (6 * k + r + 4) / 6 ∧ s.data.pos = posAt ds i ∧ s.data.angle = angleAt ds j

theorem times_client (ds : List Data) (s : State) (i j : ℕ) (h : Times ds s i j) : ∃ i' j', i ≤ i' ∧ j ≤ j' ∧ Times ds (clientStep s) i' j' := by
  obtain ⟨k, r, hk, hc, rfl, rfl, hp, ha⟩ := h
  rcases hk with ⟨hr, hk⟩ | ⟨rfl, rfl⟩
  · have e1 : ds.drop k = ds[k] :: ds.drop (k + 1) := List.drop_eq_getElem_cons hk
    have hd : dataAt ds (k + 1) = ds[k] := by simp [dataAt, hk]
    have hnext : (0 < 6 ∧ k + 1 < ds.length ∨ (0 : ℕ) = 0 ∧ k + 1 = ds.length) := by omega
    rw [e1, List.flatMap_cons] at hc
    have hblock : ∀ t : State, t.data.pos = s.data.pos → t.data.angle = s.data.angle → t = s → ∃ i' j', (6 * k + r + 2) / 6 ≤ i' ∧ (6 * k + r + 4) / 6 ≤ j' ∧ Times ds t i' j' := by
      rintro t - - rfl
      exact ⟨_, _, le_refl _, le_refl _, k, r, .inl ⟨hr, hk⟩, by rw [hc, e1, List.flatMap_cons], rfl, rfl, hp, ha⟩
    rcases (by omega : r = 0 ∨ r = 1 ∨ r = 2 ∨ r = 3 ∨ r = 4 ∨ r = 5) with rfl | rfl | rfl | rfl | rfl | rfl
    · by_cases hl : s.lock = none
      · refine ⟨(6 * k + 1 + 2) / 6, (6 * k + 1 + 4) / 6, by omega, by omega, k, 1, .inl ⟨by omega, hk⟩, ?_, rfl, rfl, ?_, ?_⟩
        · rw [e1, List.flatMap_cons]
          simp [clientStep, hc, compile, hl]
        · rw [show (6 * k + 1 + 2) / 6 = (6 * k + 0 + 2) / 6 by omega, ← hp]
          simp [clientStep, hc, compile, hl]
        · rw [show (6 * k + 1 + 4) / 6 = (6 * k + 0 + 4) / 6 by omega, ← ha]
          simp [clientStep, hc, compile, hl]
      · exact hblock _ (by simp [clientStep, hc, compile, hl]) (by simp [clientStep, hc, compile, hl]) (by simp [clientStep, hc, compile, hl])
    · refine ⟨(6 * k + 2 + 2) / 6, (6 * k + 2 + 4) / 6, by omega, by omega, k, 2, .inl ⟨by omega, hk⟩, ?_, rfl, rfl, ?_, ?_⟩
      · rw [e1, List.flatMap_cons]
        simp [clientStep, hc, compile]
      · rw [show (6 * k + 2 + 2) / 6 = (6 * k + 1 + 2) / 6 by omega, ← hp]
        simp [clientStep, hc, compile]
      · rw [show (6 * k + 2 + 4) / 6 = k + 1 by omega, angleAt, hd]
        simp [clientStep, hc, compile]
    · refine ⟨(6 * k + 3 + 2) / 6, (6 * k + 3 + 4) / 6, by omega, by omega, k, 3, .inl ⟨by omega, hk⟩, ?_, rfl, rfl, ?_, ?_⟩
      · rw [e1, List.flatMap_cons]
        simp [clientStep, hc, compile]
      · rw [show (6 * k + 3 + 2) / 6 = (6 * k + 2 + 2) / 6 by omega, ← hp]
        simp [clientStep, hc, compile]
      · rw [show (6 * k + 3 + 4) / 6 = (6 * k + 2 + 4) / 6 by omega, ← ha]
        simp [clientStep, hc, compile]
    · refine ⟨(6 * k + 4 + 2) / 6, (6 * k + 4 + 4) / 6, by omega, by omega, k, 4, .inl ⟨by omega, hk⟩, ?_, rfl, rfl, ?_, ?_⟩
      · rw [e1, List.flatMap_cons]
        simp [clientStep, hc, compile]
      · rw [show (6 * k + 4 + 2) / 6 = k + 1 by omega, posAt, hd]
        simp [clientStep, hc, compile]
      · rw [show (6 * k + 4 + 4) / 6 = (6 * k + 3 + 4) / 6 by omega, ← ha]
        simp [clientStep, hc, compile]
    · refine ⟨(6 * k + 5 + 2) / 6, (6 * k + 5 + 4) / 6, by omega, by omega, k, 5, .inl ⟨by omega, hk⟩, ?_, rfl, rfl, ?_, ?_⟩
      · rw [e1, List.flatMap_cons]
        simp [clientStep, hc, compile]
      · rw [show (6 * k + 5 + 2) / 6 = (6 * k + 4 + 2) / 6 by omega, ← hp]
        simp [clientStep, hc, compile]
      · rw [show (6 * k + 5 + 4) / 6 = (6 * k + 4 + 4) / 6 by omega, ← ha]
        simp [clientStep, hc, compile]
    · refine ⟨(6 * (k + 1) + 0 + 2) / 6, (6 * (k + 1) + 0 + 4) / 6, by omega, by omega, k + 1, 0, by omega, ?_, rfl, rfl, ?_, ?_⟩
      · simp [clientStep, hc, compile]
      · rw [show (6 * (k + 1) + 0 + 2) / 6 = (6 * k + 5 + 2) / 6 by omega, ← hp]
        simp [clientStep, hc, compile]
      · rw [show (6 * (k + 1) + 0 + 4) / 6 = (6 * k + 5 + 4) / 6 by omega, ← ha]
        simp [clientStep, hc, compile]
  · have : s.client = [] := by simpa using hc
    refine ⟨_, _, le_refl _, le_refl _, ds.length, 0, .inr ⟨rfl, rfl⟩, ?_, rfl, rfl, ?_, ?_⟩
    · simp [clientStep, this]
    · rw [← hp]
      simp [clientStep, this]
    · rw [← ha]
      simp [clientStep, this]

theorem render_same (s : State) : (renderStep s).client = s.client ∧ (renderStep s).data = s.data := by
  unfold renderStep
  cases s.pc <;> simp only <;> (try split_ifs) <;> simp

/-- the colour was found for an earlier position and an earlier angle -/
def ColourOk (ds : List Data) (i j : ℕ) (g : Bool) : Prop := g = true → ∃ i' ≤ i, ∃ j' ≤ j, angleAt ds j' < 0.05 ∧ |posAt ds i'| < 0.05

/-- the numbers read so far, at the time where the position is of the call `i` and the angle of the call `j` -/
def PcOk (ds : List Data) (i j : ℕ) : Pc → Prop
  | .angle => True
  | .pos => ∃ j' ≤ j, angleAt ds j' < 0.05
  | .box g => ColourOk ds i j g
  | .foot g b => ∃ i1 ≤ i, ColourOk ds i1 j g ∧ b = posAt ds i1 - cartwidth / 2
  | .tipPos g b f => ∃ i1 i2, i1 ≤ i2 ∧ i2 ≤ i ∧ ColourOk ds i1 j g ∧ b = posAt ds i1 - cartwidth / 2 ∧ f = posAt ds i2
  | .sin g b f p => ∃ i1 i2 i3, i1 ≤ i2 ∧ i2 ≤ i3 ∧ i3 ≤ i ∧ ColourOk ds i1 j g ∧ b = posAt ds i1 - cartwidth / 2 ∧ f = posAt ds i2 ∧ p = posAt ds i3
  | .cos g b f x => ∃ i1 i2 i3 j1, i1 ≤ i2 ∧ i2 ≤ i3 ∧ i3 ≤ i ∧ j1 ≤ j ∧ ColourOk ds i1 j1 g ∧ b = posAt ds i1 - cartwidth / 2 ∧ f = posAt ds i2 ∧ x = posAt ds i3 + polelength * Real.sin (angleAt ds j1)

def FrameOk (ds : List Data) (f : Frame) : Prop := ∃ i1 i2 i3 j1 j2, i1 ≤ i2 ∧ i2 ≤ i3 ∧ i3 ≤ ds.length ∧ j1 ≤ j2 ∧ j2 ≤ ds.length ∧ ColourOk ds i1 j1 f.green ∧ f.boxX = posAt ds i1 - cartwidth / 2 ∧ f.foot = (posAt ds i2, 0) ∧
  f.tip = (posAt ds i3 + polelength * Real.sin (angleAt ds j1), polelength * Real.cos (angleAt ds j2))

theorem colourOk_mono (ds : List Data) {i j i' j' : ℕ} (hi : i ≤ i') (hj : j ≤ j') {g : Bool} (h : ColourOk ds i j g) : ColourOk ds i' j' g := by
  intro hg
  obtain ⟨a, ha, b, hb, h⟩ := h hg
  exact ⟨a, ha.trans hi, b, hb.trans hj, h⟩

theorem pcOk_mono (ds : List Data) {i j i' j' : ℕ} (hi : i ≤ i') (hj : j ≤ j') (pc : Pc) (h : PcOk ds i j pc) : PcOk ds i' j' pc := by
  cases pc with
  | angle => trivial
  | pos => exact h.imp fun _ h => ⟨h.1.trans hj, h.2⟩
  | box g => exact colourOk_mono ds hi hj h
  | foot g b =>
    obtain ⟨i1, h1, h2, h3⟩ := h
    exact ⟨i1, h1.trans hi, colourOk_mono ds le_rfl hj h2, h3⟩
  | tipPos g b f =>
    obtain ⟨i1, i2, h1, h2, h3, h4⟩ := h
    exact ⟨i1, i2, h1, h2.trans hi, colourOk_mono ds le_rfl hj h3, h4⟩
  | sin g b f p =>
    obtain ⟨i1, i2, i3, h1, h2, h3, h4, h5⟩ := h
    exact ⟨i1, i2, i3, h1, h2, h3.trans hi, colourOk_mono ds le_rfl hj h4, h5⟩
  | cos g b f x =>
    obtain ⟨i1, i2, i3, j1, h1, h2, h3, h4, h5⟩ := h
    exact ⟨i1, i2, i3, j1, h1, h2, h3.trans hi, h4.trans hj, h5⟩

def Values (ds : List Data) (s : State) : Prop := ∃ i j, Times ds s i j ∧ PcOk ds i j s.pc ∧ ∀ f ∈ s.frames, FrameOk ds f

theorem client_same (s : State) : (clientStep s).pc = s.pc ∧ (clientStep s).frames = s.frames := by
  unfold clientStep
  rcases s.client with _ | ⟨_ | _ | _ | _ | _ | _, is⟩ <;> simp only <;> (try split_ifs) <;> simp

theorem values_render (ds : List Data) (s : State) (h : Values ds s) : Values ds (renderStep s) := by
  obtain ⟨i, j, ht, hpc, hf⟩ := h
  obtain ⟨e1, e2⟩ := render_same s
  have ht' : Times ds (renderStep s) i j := by
    unfold Times
    rw [e1, e2]
    exact ht
  obtain ⟨k, r, hk, -, rfl, rfl, hp, ha⟩ := ht
  refine ⟨_, _, ht', ?_⟩
  have hi : (6 * k + r + 2) / 6 ≤ ds.length := by omega
  have hj : (6 * k + r + 4) / 6 ≤ ds.length := by omega
  generalize (6 * k + r + 2) / 6 = i at *
  generalize (6 * k + r + 4) / 6 = j at *
  clear ht' e1 e2
  unfold renderStep
  cases h : s.pc with
  | angle =>
    simp only
    split_ifs with hlt
    · exact ⟨⟨j, le_rfl, ha ▸ hlt⟩, hf⟩
    · exact ⟨by simp [PcOk, ColourOk], hf⟩
  | pos =>
    rw [h] at hpc
    obtain ⟨j', h1, h2⟩ := hpc
    refine ⟨fun hg => ⟨i, le_rfl, j', h1, h2, ?_⟩, hf⟩
    rw [← hp]
    simpa using hg
  | box g =>
    rw [h] at hpc
    exact ⟨⟨i, le_rfl, hpc, by rw [hp]⟩, hf⟩
  | foot g b =>
    rw [h] at hpc
    obtain ⟨i1, h1, h2, h3⟩ := hpc
    exact ⟨⟨i1, i, h1, le_rfl, h2, h3, hp⟩, hf⟩
  | tipPos g b f =>
    rw [h] at hpc
    obtain ⟨i1, i2, h1, h2, h3, h4, h5⟩ := hpc
    exact ⟨⟨i1, i2, i, h1, h2, le_rfl, h3, h4, h5, hp⟩, hf⟩
  | sin g b f p =>
    rw [h] at hpc
    obtain ⟨i1, i2, i3, h1, h2, h3, h4, h5, h6, h7⟩ := hpc
    exact ⟨⟨i1, i2, i3, j, h1, h2, h3, le_rfl, h4, h5, h6, by rw [h7, ha]⟩, hf⟩
  | cos g b f x =>
    rw [h] at hpc
    obtain ⟨i1, i2, i3, j1, h1, h2, h3, h4, h5, h6, h7, h8⟩ := hpc
    refine ⟨trivial, fun q hq => ?_⟩
    rcases List.mem_append.1 hq with hq | hq
    · exact hf q hq
    · obtain rfl := List.mem_singleton.1 hq
      exact ⟨i1, i2, i3, j1, j, h1, h2, h3.trans hi, h4, hj, h5, h6, by rw [h7], by rw [h8, ha]⟩

theorem values_run (ds : List Data) (schedule : List Thread) : Values ds (run (start ds) schedule) := by
  have key : ∀ (schedule : List Thread) (s : State), Values ds s → Values ds (run s schedule) := by
    intro schedule
    induction schedule with
    | nil => exact fun s h => h
    | cons t ts ih =>
      intro s h
      cases t with
      | client =>
        refine ih _ ?_
        obtain ⟨i, j, h1, h2, h3⟩ := h
        obtain ⟨i', j', hi, hj, h4⟩ := times_client ds s i j h1
        obtain ⟨e1, e2⟩ := client_same s
        refine ⟨i', j', h4, ?_, ?_⟩
        · change PcOk ds i' j' (clientStep s).pc
          rw [e1]
          exact pcOk_mono ds hi hj _ h2
        · change ∀ f ∈ (clientStep s).frames, _
          rw [e2]
          exact h3
      | renderer => exact ih _ (values_render ds s h)
  refine key schedule _ ⟨0, 0, ⟨0, 0, by simp; omega, rfl, rfl, rfl, rfl, rfl⟩, trivial, ?_⟩
  intro f hf
  simp [start] at hf

end Verif.Renderers.CartPole

namespace Verif.Props
open Verif.Renderers

/-- For every schedule, all that `CartPoleRenderer` draws is made of positions and angles of calls of `updateData` (or zeros): the left end of the cart, the foot and the tip of the pole in the order of the calls, and the same for the angle of the tip. -/
theorem C201_values (ds : List CartPole.Data) (schedule : List Thread) (f : CartPole.Frame) (hf : f ∈ (CartPole.run (CartPole.start ds) schedule).frames) :
    ∃ i1 i2 i3 j1 j2 : ℕ, i1 ≤ i2 ∧ i2 ≤ i3 ∧ j1 ≤ j2 ∧ ∃ d1 d2 d3 e1 e2 : CartPole.Data, (⟨0, 0, 0, 0⟩ :: ds)[i1]? = some d1 ∧ (⟨0, 0, 0, 0⟩ :: ds)[i2]? = some d2 ∧ (⟨0, 0, 0, 0⟩ :: ds)[i3]? = some d3 ∧
      (⟨0, 0, 0, 0⟩ :: ds)[j1]? = some e1 ∧ (⟨0, 0, 0, 0⟩ :: ds)[j2]? = some e2 ∧
      f.boxX + CartPole.cartwidth / 2 = d1.pos ∧ f.foot = (d2.pos, 0) ∧ f.tip = (d3.pos + CartPole.polelength * Real.sin e1.angle, CartPole.polelength * Real.cos e2.angle) ∧
      (f.green = true → (∃ d ∈ (⟨0, 0, 0, 0⟩ :: ds : List CartPole.Data), |d.pos| < 0.05) ∧ ∃ d ∈ (⟨0, 0, 0, 0⟩ :: ds : List CartPole.Data), d.angle < 0.05) := by
  obtain ⟨_, _, -, -, h⟩ := CartPole.values_run ds schedule
  obtain ⟨i1, i2, i3, j1, j2, h1, h2, h3, h4, h5, h6, h7, h8, h9⟩ := h f hf
  have hget : ∀ k, k ≤ ds.length → (⟨0, 0, 0, 0⟩ :: ds)[k]? = some (CartPole.dataAt ds k) := by
    intro k hk
    have hlen : k < (⟨0, 0, 0, 0⟩ :: ds : List CartPole.Data).length := by simpa using Nat.lt_succ_of_le hk
    rw [List.getElem?_eq_getElem hlen]
    unfold CartPole.dataAt
    rw [List.getD_eq_getElem _ _ hlen]
  refine ⟨i1, i2, i3, j1, j2, h1, h2, h4, _, _, _, _, _, hget i1 (by omega), hget i2 (by omega), hget i3 h3, hget j1 (by omega), hget j2 h5, ?_, h8, h9, fun hg => ?_⟩
  · rw [h7, CartPole.posAt]
    ring
  · obtain ⟨i', hi, j', hj, q1, q2⟩ := h6 hg
    exact ⟨⟨_, List.mem_of_getElem? (hget i' (by omega)), q2⟩, ⟨_, List.mem_of_getElem? (hget j' (by omega)), q1⟩⟩

/-- There are such frames, also with values of different calls. -/
example (d : CartPole.Data) (hd : d.pos ≠ 0) : ∃ schedule f, f ∈ (CartPole.run (CartPole.start [d]) schedule).frames ∧ f.boxX + CartPole.cartwidth / 2 ≠ f.foot.1 := by
  obtain ⟨s1, -, f1, -, h1, -, h3, -⟩ := C201_negation_torn d hd
  exact ⟨s1, f1, by simp [h1], h3⟩

end Verif.Props

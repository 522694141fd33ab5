import Verif.Model.FastCartPole
import Verif.Spec.FastCartPole
import Mathlib.Tactic.FinCases
import Mathlib.Tactic.Linarith
import Mathlib.Tactic.FieldSimp
import Mathlib.Tactic.Ring
import Mathlib.Tactic.NormNum
/-
Lemmas about the fast cart-pole.
-/
namespace Verif.FastCart
open Real Spec

theorem mi_pos {m : ℝ} (hm : 0 < m) (th : ℝ) : 0 < mi m th := by
  unfold mi
  have : cos th * cos th ≤ 1 := by nlinarith [sin_sq_add_cos_sq th, sq_nonneg (sin th)]
  apply mul_pos hm; nlinarith

theorem m1_pos : 0 < m1 := by norm_num [m1]
theorem m2_pos : 0 < m2 := by norm_num [m2]
theorem l1_pos : 0 < l1 := by norm_num [l1]
theorem l2_pos : 0 < l2 := by norm_num [l2]

/-- a pole's equation determines its angular acceleration -/
theorem poleEq_iff {m l th om a al : ℝ} (hl : 0 < l) : PoleEq 9.8 0.000002 a ⟨m, l, th, om⟩ al ↔ al = -0.75 * (a * cos th + grav * sin th + temp m l om) / l := by
  unfold PoleEq grav temp mup
  dsimp only
  rw [mul_comm m l]
  rw [eq_div_iff (ne_of_gt hl)]
  constructor <;> intro h <;> linarith

/-- what a pole adds to the balance, its angular acceleration being determined by its equation -/
theorem pull_eq {m l th om a : ℝ} (hm : 0 < m) (hl : 0 < l) : pull a ⟨m, l, th, om⟩ (-0.75 * (a * cos th + grav * sin th + temp m l om) / l) = mi m th * a - fi m l th om := by
  unfold pull mi fi
  dsimp only
  field_simp
  ring

theorem cart_one {F a : ℝ} {y : Arr} : CartEq 1 F a [(pole1 y, -0.75 * (a * cos (y 2) + grav * sin (y 2) + temp m1 l1 (y 3)) / l1)] ↔
    a = (F + fi m1 l1 (y 2) (y 3) + 0) / (mi m1 (y 2) + 0 + mc) := by
  have h := mi_pos m1_pos (y 2)
  have hp := pull_eq (a := a) (th := y 2) (om := y 3) m1_pos l1_pos
  rw [eq_div_iff (by unfold mc; linarith)]
  unfold CartEq pole1
  have e : ({ m := 0.1, l := 0.5, th := y 2, om := y 3 } : Pole) = ⟨m1, l1, y 2, y 3⟩ := rfl
  rw [e]
  simp only [List.map_cons, List.map_nil, List.sum_cons, List.sum_nil]
  rw [hp]
  unfold mc
  constructor <;> intro h <;> linarith

theorem pole2_eq (y : Arr) : pole2 y = ⟨m2, l2, y 4, y 5⟩ := by unfold pole2 m2 l2; norm_num

theorem cart_two {F a : ℝ} {y : Arr} : CartEq 1 F a [(pole1 y, -0.75 * (a * cos (y 2) + grav * sin (y 2) + temp m1 l1 (y 3)) / l1),
      (pole2 y, -0.75 * (a * cos (y 4) + grav * sin (y 4) + temp m2 l2 (y 5)) / l2)] ↔
    a = (F + fi m1 l1 (y 2) (y 3) + fi m2 l2 (y 4) (y 5)) / (mi m1 (y 2) + mi m2 (y 4) + mc) := by
  have h := mi_pos m1_pos (y 2)
  have h' := mi_pos m2_pos (y 4)
  have hp := pull_eq (a := a) (th := y 2) (om := y 3) m1_pos l1_pos
  have hp' := pull_eq (a := a) (th := y 4) (om := y 5) m2_pos l2_pos
  rw [eq_div_iff (by unfold mc; linarith)]
  unfold CartEq
  rw [pole2_eq]
  have e : pole1 y = ⟨m1, l1, y 2, y 3⟩ := rfl
  rw [e]
  simp only [List.map_cons, List.map_nil, List.sum_cons, List.sum_nil]
  rw [hp, hp']
  unfold mc
  constructor <;> intro h <;> linarith

/-- the derivative that the program uses -/
noncomputable def field (np : Nat) (a : ℝ) (y : Arr) : Arr := fun i => if used np i then velocities (step np a y 0) y i else 0

theorem field_motion (np : Nat) (a : ℝ) (y : Arr) : Motion np (force a) y (field np a y) := by
  have e : pole1 y = ⟨m1, l1, y 2, y 3⟩ := rfl
  by_cases h : np > 1
  · constructor
    · simp [field, velocities, used, h]
    · simp [field, velocities, used, h]
    · rw [e, poleEq_iff l1_pos]; simp [field, velocities, step, used, h]
    · intro h'; omega
    · intro _
      refine ⟨by simp [field, velocities, used, h], by rw [pole2_eq, poleEq_iff l2_pos]; simp [field, velocities, step, used, h], ?_⟩
      have := (cart_two (F := force a) (a := field np a y 1) (y := y)).2 (by simp [field, velocities, step, used, h])
      convert this using 4
      · simp [field, velocities, step, used, h]
      · simp [field, velocities, step, used, h]
  · constructor
    · simp [field, velocities, used, h]
    · simp [field, velocities, used, h]
    · rw [e, poleEq_iff l1_pos]; simp [field, velocities, step, used, h]
    · intro _
      refine ⟨by simp [field, velocities, used, h], by simp [field, velocities, used, h], ?_⟩
      have := (cart_one (F := force a) (a := field np a y 1) (y := y)).2 (by simp [field, velocities, step, used, h])
      convert this using 4
      simp [field, velocities, step, used, h]
    · intro h'; omega

theorem motion_unique (np : Nat) (F : ℝ) (y d d' : Arr) (h : Motion np F y d) (h' : Motion np F y d') : d = d' := by
  have e : pole1 y = ⟨m1, l1, y 2, y 3⟩ := rfl
  have p := h.pole
  have p' := h'.pole
  rw [e, poleEq_iff l1_pos] at p p'
  by_cases hn : 1 < np
  · obtain ⟨a1, a2, a3⟩ := h.two hn
    obtain ⟨b1, b2, b3⟩ := h'.two hn
    rw [pole2_eq, poleEq_iff l2_pos] at a2 b2
    rw [p, a2, cart_two] at a3
    rw [p', b2, cart_two] at b3
    have h1 : d 1 = d' 1 := a3.trans b3.symm
    have h3 : d 3 = d' 3 := by rw [p, p', h1]
    have h5 : d 5 = d' 5 := by rw [a2, b2, h1]
    funext i
    fin_cases i
    · exact h.cart.trans h'.cart.symm
    · exact h1
    · exact h.angle.trans h'.angle.symm
    · exact h3
    · exact a1.trans b1.symm
    · exact h5
  · obtain ⟨a1, a2, a3⟩ := h.one (by omega)
    obtain ⟨b1, b2, b3⟩ := h'.one (by omega)
    rw [p, cart_one] at a3
    rw [p', cart_one] at b3
    have h1 : d 1 = d' 1 := a3.trans b3.symm
    have h3 : d 3 = d' 3 := by rw [p, p', h1]
    funext i
    fin_cases i
    · exact h.cart.trans h'.cart.symm
    · exact h1
    · exact h.angle.trans h'.angle.symm
    · exact h3
    · exact a1.trans b1.symm
    · exact a2.trans b2.symm

/-- The derivative depends on the used entries only. -/
theorem field_congr (np : Nat) (a : ℝ) (y y' d : Arr) (h : ∀ i, used np i → y i = y' i) (i : Fin 6) (hi : used np i) :
    velocities (step np a y d) y i = field np a y' i := by
  unfold field
  rw [if_pos hi]
  by_cases hn : np > 1
  · have e : y = y' := by
      funext k; apply h
      unfold used; rw [if_pos hn]; omega
    subst e
    fin_cases i <;> simp [velocities, step, hn]
  · have u : ∀ k : Fin 6, k.1 ≤ 3 → y k = y' k := by
      intro k hk; apply h; unfold used; rw [if_neg hn]; exact hk
    have h0 := u 0 (by decide)
    have h1 := u 1 (by decide)
    have h2 := u 2 (by decide)
    have h3 := u 3 (by decide)
    unfold used at hi
    rw [if_neg hn] at hi
    fin_cases i
    · simp [velocities, h1]
    · simp [velocities, step, hn, h2, h3]
    · simp [velocities, h3]
    · simp [velocities, step, hn, h2, h3]
    · simp at hi
    · simp at hi

theorem rk4_eq (np : Nat) (a : ℝ) (y dydx : Arr) (j : Junk) (hd : ∀ i, used np i → dydx i = field np a y i) : rk4 np a y dydx j = rungeKutta (field np a) 0.01 y := by
  have f0 : ∀ (z : Arr) i, ¬ used np i → field np a z i = 0 := fun z i h => by unfold field; rw [if_neg h]
  unfold rk4
  extract_lets hh h6 y1 d2 y2 d3 y3 d23 d4
  have e1 : ∀ i, used np i → y1 i = (y + ((0.01 : ℝ) / 2) • field np a y) i := by
    intro i hi
    simp only [y1, hh]; rw [if_pos hi, hd i hi]
    simp only [Pi.add_apply, Pi.smul_apply, smul_eq_mul, tau]; ring
  have k2 : ∀ i, used np i → d2 i = _ := field_congr np a _ _ j.dyt e1
  have e2 : ∀ i, used np i → y2 i = (y + ((0.01 : ℝ) / 2) • field np a (y + ((0.01 : ℝ) / 2) • field np a y)) i := by
    intro i hi
    simp only [y2, hh]; rw [if_pos hi, k2 i hi]
    simp only [Pi.add_apply, Pi.smul_apply, smul_eq_mul, tau]; ring
  have k3 : ∀ i, used np i → d3 i = _ := field_congr np a _ _ j.dym e2
  have e3 : ∀ i, used np i → y3 i = (y + (0.01 : ℝ) • field np a (y + ((0.01 : ℝ) / 2) • field np a (y + ((0.01 : ℝ) / 2) • field np a y))) i := by
    intro i hi
    simp only [y3]; rw [if_pos hi, k3 i hi]
    simp only [Pi.add_apply, Pi.smul_apply, smul_eq_mul, tau]
  have k4 : ∀ i, used np i → d4 i = _ := field_congr np a _ _ d2 e3
  funext i
  unfold rungeKutta
  by_cases hi : used np i
  · have k5 : d23 i = d3 i + d2 i := if_pos hi
    rw [if_pos hi, k4 i hi, k5, k3 i hi, k2 i hi, hd i hi]
    simp only [Pi.add_apply, Pi.smul_apply, smul_eq_mul, tau, h6]; ring
  · rw [if_neg hi]
    simp only [Pi.add_apply, Pi.smul_apply, smul_eq_mul, f0 _ i hi]; ring

theorem integrate_eq (w : World) (a : ℝ) (j : Junk) : (integrate w a j).state = rungeKutta (field w.numPoles a) 0.01 w.state := by
  unfold integrate
  dsimp only
  apply rk4_eq
  intro i hi
  unfold field
  rw [if_pos hi]
  by_cases hn : w.numPoles > 1
  · fin_cases i <;> simp [velocities, step, hn]
  · unfold used at hi
    rw [if_neg hn] at hi
    fin_cases i
    · simp [velocities, step]
    · simp [velocities, step]
    · simp [velocities, step]
    · simp [velocities, step]
    · simp at hi
    · simp at hi

theorem doAction_state (j j' : Junk) (a : ℝ) (w : World) :
    (doAction j j' a w).state = rungeKutta (field w.numPoles a) 0.01 (rungeKutta (field w.numPoles a) 0.01 w.state) := by
  have h := integrate_eq (integrate w a j) a j'
  rw [integrate_eq w a j] at h
  exact h

theorem doAction_frame (j j' : Junk) (a : ℝ) (w : World) : (doAction j j' a w).numPoles = w.numPoles ∧ (doAction j j' a w).markov = w.markov ∧
    (doAction j j' a w).maxsteps = w.maxsteps ∧ (doAction j j' a w).steps = w.steps + 1 := ⟨rfl, rfl, rfl, rfl⟩

theorem force_nonneg {a : ℝ} (ha : 0 ≤ a) : force a = min 10 (max 0.0390625 (a * 10)) := by
  have ha' : 0 ≤ a * 10 := by linarith
  unfold force
  generalize a * 10 = x at ha'
  by_cases h : x > 10
  · have e1 : cutHigh x = 10 := if_pos h
    have e2 : cutLow 10 = 10 := if_neg (by norm_num)
    have e3 : pushRight 10 = 10 := if_neg (by norm_num)
    have e4 : pushLeft 10 = 10 := if_neg (by norm_num)
    rw [e1, e2, e3, e4, max_eq_right (by linarith), min_eq_left (by linarith)]
  · have h' : x ≤ 10 := not_lt.1 h
    have e1 : cutHigh x = x := if_neg h
    have e2 : cutLow x = x := if_neg (not_lt.2 (by linarith))
    rw [e1, e2]
    by_cases h2 : x < 0.0390625
    · have e3 : pushRight x = 0.0390625 := if_pos ⟨ha', h2⟩
      have e4 : pushLeft 0.0390625 = 0.0390625 := if_neg (by norm_num)
      rw [e3, e4, max_eq_left h2.le, min_eq_right (by norm_num)]
    · have e3 : pushRight x = x := if_neg (by rintro ⟨_, h3⟩; exact h2 h3)
      have e4 : pushLeft x = x := if_neg (by rintro ⟨h3, _⟩; linarith)
      rw [e3, e4, max_eq_right (not_lt.1 h2), min_eq_right h']

theorem force_negative {a : ℝ} (ha : 0 < a) : force (-a) = -min 10 (max 0.0390625 (a * 10)) := by
  have ha' : 0 < a * 10 := by linarith
  unfold force
  rw [neg_mul]
  generalize a * 10 = x at ha'
  have e1 : cutHigh (-x) = -x := if_neg (not_lt.2 (by linarith))
  rw [e1]
  by_cases h : x > 10
  · have e2 : cutLow (-x) = -10 := if_pos (by linarith)
    have e3 : pushRight (-10) = -10 := if_neg (by norm_num)
    have e4 : pushLeft (-10) = -10 := if_neg (by norm_num)
    rw [e2, e3, e4, max_eq_right (by linarith), min_eq_left (by linarith)]
  · have h' : x ≤ 10 := not_lt.1 h
    have e2 : cutLow (-x) = -x := if_neg (not_lt.2 (by linarith))
    have e3 : pushRight (-x) = -x := if_neg (by rintro ⟨h3, _⟩; linarith)
    rw [e2, e3]
    by_cases h2 : x < 0.0390625
    · have e4 : pushLeft (-x) = -0.0390625 := if_pos ⟨by linarith, by linarith⟩
      rw [e4, max_eq_left h2.le, min_eq_right (by norm_num)]
    · have e4 : pushLeft (-x) = -x := if_neg (by rintro ⟨_, h3⟩; apply h2; linarith)
      rw [e4, max_eq_right (not_lt.1 h2), min_eq_right h']

theorem force_neg {a : ℝ} (ha : a ≠ 0) : force (-a) = -force a := by
  rcases lt_or_gt_of_ne ha with h | h
  · have := force_negative (a := -a) (by linarith)
    rw [neg_neg] at this
    rw [this, force_nonneg (by linarith), neg_neg]
  · rw [force_negative h, force_nonneg (le_of_lt h)]

theorem field_neg (np : Nat) {a : ℝ} (ha : a ≠ 0) (y : Arr) : field np (-a) (-y) = -field np a y := by
  have hf : ∀ m l th om, fi m l (-th) (-om) = -fi m l th om := by
    intro m l th om; unfold fi temp; rw [sin_neg, cos_neg]; ring
  have hm : ∀ m th, mi m (-th) = mi m th := by intro m th; unfold mi; rw [cos_neg]
  have ht : ∀ m l om, temp m l (-om) = -temp m l om := by intro m l om; unfold temp; ring
  funext i
  unfold field
  simp only [Pi.neg_apply]
  by_cases hi : used np i
  · rw [if_pos hi, if_pos hi]
    by_cases hn : np > 1
    · fin_cases i
      · simp [velocities]
      · simp [velocities, step, hn, force_neg ha, hf, hm]; ring
      · simp [velocities]
      · simp [velocities, step, hn, force_neg ha, hf, hm, ht]; ring
      · simp [velocities]
      · simp [velocities, step, hn, force_neg ha, hf, hm, ht]; ring
    · unfold used at hi
      rw [if_neg hn] at hi
      fin_cases i
      · simp [velocities]
      · simp [velocities, step, hn, force_neg ha, hf, hm]; ring
      · simp [velocities]
      · simp [velocities, step, hn, force_neg ha, hf, hm, ht]; ring
      · simp at hi
      · simp at hi
  · rw [if_neg hi, if_neg hi]; simp

theorem rungeKutta_neg {n : Nat} {G G' : (Fin n → ℝ) → Fin n → ℝ} (hG : ∀ y, G' (-y) = -G y) (h : ℝ) (y : Fin n → ℝ) : rungeKutta G' h (-y) = -rungeKutta G h y := by
  have e : ∀ (c : ℝ) (u v : Fin n → ℝ), -u + c • -v = -(u + c • v) := by intro c u v; rw [smul_neg, neg_add]
  unfold rungeKutta
  dsimp only
  simp only [hG, e]
  funext i
  simp only [Pi.add_apply, Pi.smul_apply, Pi.neg_apply, smul_eq_mul]; ring

end Verif.FastCart

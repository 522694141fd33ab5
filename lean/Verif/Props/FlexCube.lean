import Verif.Model.FlexCube

/-!
# C166: the physics of the flexible cube
-/

namespace Verif.FlexCube

theorem edges_eq : edges = [(0, 1), (0, 2), (0, 4), (1, 3), (1, 5), (2, 3), (2, 6), (3, 7), (4, 5),
    (4, 6), (5, 7), (6, 7)] := by decide

/-- What users do with the environment. -/
inductive Act where
  | reset
  | perform (a : Fin 12 → ℝ)

/-- The effect of an act. -/
noncomputable def State.act (s : State) : Act → State
  | .reset => reset s
  | .perform a => performAction s a

/-- The cube is what the springs say: distances are those of the points, the points are above the
floor, the springs along the edges have the lengths of the last action, which are in the allowed
range, and the diagonal springs have the lengths of the diagonals of the cube at the start. -/
structure Good (s : State) : Prop where
  hight : 10 ≤ s.startHight
  dif : ∀ i j, s.dif i j = s.pos i - s.pos j
  dist : ∀ i j, s.dist i j = len (s.pos i - s.pos j)
  floor : ∀ i, 0 ≤ s.pos i 1
  edge : ∀ k : Fin 12, ∀ e, edges[k.val]? = some e → s.spring e.1 e.2 = s.action k
  symm : ∀ i j, s.spring i j = s.spring j i
  diagonal : ∀ i j, (i, j) ∉ edges → (j, i) ∉ edges →
    s.spring i j = len (startPos 0 i - startPos 0 j)
  range : ∀ k, 14 ≤ s.action k ∧ s.action k ≤ 26

theorem minAkt_eq : minAkt = 14 := by unfold minAkt side fraktMin; norm_num
theorem maxAkt_eq : maxAkt = 26 := by unfold maxAkt side fraktMax; norm_num

theorem normAct_range (a : Fin 12 → ℝ) (k : Fin 12) : 14 ≤ normAct a k ∧ normAct a k ≤ 26 := by
  unfold normAct
  rw [minAkt_eq, maxAkt_eq]
  exact ⟨le_min (le_max_right _ _) (by norm_num), min_le_right _ _⟩

theorem startDif (h : ℝ) (i j : Fin 8) :
    startPos h i - startPos h j = startPos 0 i - startPos 0 j := by
  funext c
  fin_cases c <;> simp [startPos]

theorem distances_eq (pos : Fin 8 → Vec) (i j : Fin 8) :
    distances (differences pos) i j = len (pos i - pos j) := rfl

theorem len_symm (v w : Vec) : len (v - w) = len (w - v) := by
  unfold len
  congr 1
  apply Finset.sum_congr rfl
  intro c _
  simp only [Pi.sub_apply]
  ring

theorem len_nonneg (v : Vec) : 0 ≤ len v := Real.sqrt_nonneg _

theorem edge_len (k : Fin 12) (e : Fin 8 × Fin 8) (h : edges[k.val]? = some e) :
    len (startPos 0 e.1 - startPos 0 e.2) = 20 := by
  have h20 : Real.sqrt (20 ^ 2) = 20 := Real.sqrt_sq (by norm_num)
  rw [edges_eq] at h
  fin_cases k <;> simp at h <;> subst h <;>
    (rw [← h20]; unfold len; congr 1; simp [Fin.sum_univ_three, startPos, side] <;> norm_num)

theorem start_floor (h : ℝ) (hh : 10 ≤ h) (i : Fin 8) : 0 ≤ startPos h i 1 := by
  have : (0 : ℝ) ≤ (i.val / 2 % 2 : ℕ) := Nat.cast_nonneg _
  simp only [startPos, side, Matrix.cons_val_one, Matrix.cons_val_zero]
  nlinarith

theorem good_reset (s : State) (hh : 10 ≤ s.startHight) : Good (reset s) where
  hight := hh
  dif := fun i j => rfl
  dist := fun i j => rfl
  floor := fun i => start_floor _ hh i
  edge := by
    intro k e he
    simp only [reset, distances_eq, startDif]
    rw [edge_len k e he, side]
    norm_num
  symm := fun i j => by
    simp only [reset, distances_eq]
    exact len_symm _ _
  diagonal := fun i j _ _ => by simp only [reset, distances_eq, startDif]
  range := fun k => by simp only [reset, side]; norm_num

theorem setSpring_symm (m : Fin 8 → Fin 8 → ℝ) (p q : Fin 8) (x : ℝ)
    (h : ∀ i j, m i j = m j i) (i j : Fin 8) :
    setSpring (setSpring m p q x) q p x i j = setSpring (setSpring m p q x) q p x j i := by
  have key : ∀ i j, setSpring (setSpring m p q x) q p x i j =
      if (i = p ∧ j = q) ∨ (i = q ∧ j = p) then x else m i j := by
    intro i j
    unfold setSpring
    by_cases h2 : i = q ∧ j = p
    · rw [if_pos h2, if_pos (Or.inr h2)]
    · rw [if_neg h2]
      by_cases h1 : i = p ∧ j = q
      · rw [if_pos h1, if_pos (Or.inl h1)]
      · rw [if_neg h1, if_neg (not_or.2 ⟨h1, h2⟩)]
  rw [key, key, h i j]
  have : ((i = p ∧ j = q) ∨ (i = q ∧ j = p)) ↔ ((j = p ∧ i = q) ∨ (j = q ∧ i = p)) := by tauto
  simp only [this]

theorem actLoop_symm (a : ℕ → ℝ) (es : List (Fin 8 × Fin 8)) : ∀ (c : ℕ) (m : Fin 8 → Fin 8 → ℝ),
    (∀ i j, m i j = m j i) → ∀ i j, actLoop a es c m i j = actLoop a es c m j i := by
  induction es with
  | nil => intro c m h; exact h
  | cons e es ih =>
    intro c m h
    apply ih
    intro i j
    exact setSpring_symm m e.1 e.2 _ h i j

theorem actLoop_other (a : ℕ → ℝ) (es : List (Fin 8 × Fin 8)) (i j : Fin 8)
    (h1 : (i, j) ∉ es) (h2 : (j, i) ∉ es) : ∀ (c : ℕ) (m : Fin 8 → Fin 8 → ℝ),
    actLoop a es c m i j = m i j := by
  induction es with
  | nil => intro c m; rfl
  | cons e es ih =>
    intro c m
    simp only [List.mem_cons, not_or] at h1 h2
    rw [actLoop, ih h1.2 h2.2]
    have h3 : ¬ (i = e.2 ∧ j = e.1) := fun h => h2.1 (by rw [h.1, h.2])
    have h4 : ¬ (i = e.1 ∧ j = e.2) := fun h => h1.1 (by rw [h.1, h.2])
    simp only [setSpring, if_neg h3, if_neg h4]

theorem act_edge (s : State) (a : Fin 12 → ℝ) (k : Fin 12) (e : Fin 8 × Fin 8)
    (h : edges[k.val]? = some e) : (act s a).spring e.1 e.2 = a k := by
  simp only [act]
  rw [edges_eq] at h ⊢
  fin_cases k <;> simp at h <;> subst h <;>
    simp [actLoop, setSpring, entry]

theorem landPos_floor (p : Vec) : 0 ≤ landPos p 1 := by
  unfold landPos
  split_ifs with h
  · simp
  · exact not_lt.1 h

theorem good_perform (s : State) (a : Fin 12 → ℝ) (hs : Good s) : Good (performAction s a) where
  hight := hs.hight
  dif := fun i j => rfl
  dist := fun i j => rfl
  floor := fun i => landPos_floor _
  edge := fun k e he => act_edge { s with action := normAct a } (normAct a) k e he
  symm := fun i j => actLoop_symm _ _ _ _ hs.symm i j
  diagonal := fun i j h1 h2 => by
    have h3 : (performAction s a).spring i j = s.spring i j := actLoop_other _ _ i j h1 h2 _ _
    rw [h3]
    exact hs.diagonal i j h1 h2
  range := fun k => normAct_range a k

theorem good_new : Good newEnv := by
  have h : Good (reset newEnv) := good_reset newEnv (by simp [newEnv, euler, act, reset])
  refine ⟨by simp [newEnv, euler, act, reset], fun i j => rfl, fun i j => rfl,
    fun i => landPos_floor _, ?_, ?_, ?_, ?_⟩
  · intro k e he
    have h1 : newEnv.spring e.1 e.2 = 20 := act_edge _ (fun _ => 20) k e he
    have h2 : newEnv.action k = 1 * side := rfl
    rw [h1, h2, side]
    norm_num
  · intro i j
    exact actLoop_symm _ _ _ _ h.symm i j
  · intro i j h1 h2
    have h3 : newEnv.spring i j = (reset newEnv).spring i j := actLoop_other _ _ i j h1 h2 _ _
    rw [h3]
    exact h.diagonal i j h1 h2
  · exact h.range

theorem good_run (as : List Act) : ∀ s, Good s → Good (as.foldl State.act s) := by
  induction as with
  | nil => intro s h; exact h
  | cons a as ih =>
    intro s h
    rw [List.foldl_cons]
    apply ih
    cases a with
    | reset => exact good_reset s h.hight
    | perform a => exact good_perform s a h

/-- The state with which the springs push in a step. -/
def pushed (s : State) (a : Fin 12 → ℝ) : State := act { s with action := a } a

theorem push_sum (s : State) (h1 : ∀ i j, s.dif i j = - s.dif j i)
    (h2 : ∀ i j, s.dist i j = s.dist j i) (h3 : ∀ i j, s.spring i j = s.spring j i) :
    ∑ i, push s i = 0 := by
  have hF : ∑ i, push s i = - ∑ i, push s i := by
    conv_rhs => rw [← Finset.sum_neg_distrib]
    simp only [push, ← Finset.sum_neg_distrib]
    rw [Finset.sum_comm]
    apply Finset.sum_congr rfl
    intro i _
    apply Finset.sum_congr rfl
    intro j _
    funext c
    simp only [Pi.neg_apply]
    rw [h1 j i, h2 j i, h3 j i, Pi.neg_apply]
    ring
  funext c
  have := congrFun hF c
  simp only [Pi.neg_apply, Pi.zero_apply] at this ⊢
  linarith

theorem dif_symm (s : State) (hs : Good s) (i j : Fin 8) : s.dif i j = - s.dif j i := by
  rw [hs.dif, hs.dif, neg_sub]

theorem dist_symm (s : State) (hs : Good s) (i j : Fin 8) : s.dist i j = s.dist j i := by
  rw [hs.dist, hs.dist, len_symm]

theorem free_sum (s : State) (a : Fin 12 → ℝ) (hs : Good s) :
    ∑ i, freeVel (pushed s a) i = (1 - dumping * dt) • (∑ i, s.vel i + (8 * dt) • grav) := by
  have h := push_sum (pushed s a) (dif_symm s hs) (dist_symm s hs)
    (fun i j => actLoop_symm _ _ _ _ hs.symm i j)
  have h1 : ∀ i, freeVel (pushed s a) i =
      (1 - dumping * dt) • (s.vel i + push (pushed s a) i + dt • grav) := by
    intro i
    funext c
    simp only [freeVel, Pi.sub_apply, Pi.add_apply, Pi.smul_apply, smul_eq_mul]
    have : (pushed s a).vel i = s.vel i := rfl
    rw [this]
    ring
  simp only [h1, ← Finset.smul_sum, Finset.sum_add_distrib, h]
  congr 1
  funext c
  simp
  ring

/-- The cube is moved by a vector. -/
noncomputable def shift (t : Vec) (s : State) : State :=
  { s with pos := fun i => s.pos i + t, center := s.center + t }

theorem landPos_shift (t p : Vec) (ht : t 1 = 0) : landPos (p + t) = landPos p + t := by
  have h : (p + t) 1 = p 1 := by simp [ht]
  unfold landPos
  rw [h]
  split_ifs
  · funext c
    by_cases hc : c = 1
    · subst hc; simp [ht]
    · simp [Function.update_of_ne hc]
  · rfl

theorem landVel_shift (t p v : Vec) (ht : t 1 = 0) : landVel (p + t) v = landVel p v := by
  have h : (p + t) 1 = p 1 := by simp [ht]
  unfold landVel
  rw [h]

theorem freeVel_shift (t : Vec) (s : State) (i : Fin 8) : freeVel (shift t s) i = freeVel s i := rfl

theorem freePos_shift (t : Vec) (s : State) (i : Fin 8) :
    freePos (shift t s) i = freePos s i + t := by
  simp only [freePos, freeVel_shift]
  simp only [shift]
  abel

theorem differences_shift (t : Vec) (pos : Fin 8 → Vec) :
    differences (fun i => pos i + t) = differences pos := by
  funext i j
  simp [differences]

theorem euler_shift (t : Vec) (s : State) (ht : t 1 = 0) :
    euler (shift t s) = shift t (euler s) := by
  have h1 : (fun i => landPos (freePos (shift t s) i)) =
      fun i => landPos (freePos s i) + t := by
    funext i
    rw [freePos_shift, landPos_shift t _ ht]
  have h2 : (fun i => landVel (freePos (shift t s) i) (freeVel (shift t s) i)) =
      fun i => landVel (freePos s i) (freeVel s i) := by
    funext i
    rw [freePos_shift, landVel_shift t _ _ ht, freeVel_shift]
  unfold euler
  simp only [h1, h2, differences_shift]
  have h3 : (fun c => (∑ i : Fin 8, landPos (freePos (shift t s) i) c) / 8) =
      (fun c => (∑ i : Fin 8, landPos (freePos s i) c) / 8) + t := by
    funext c
    simp only [freePos_shift, landPos_shift t _ ht, Pi.add_apply, Finset.sum_add_distrib]
    simp
    ring
  rw [h3]
  rfl

theorem perform_shift (t : Vec) (s : State) (a : Fin 12 → ℝ) (ht : t 1 = 0) :
    performAction (shift t s) a = shift t (performAction s a) := by
  unfold performAction
  have h : act { shift t s with action := normAct a } (normAct a) =
      shift t (act { s with action := normAct a } (normAct a)) := rfl
  simp only [h, euler_shift t _ ht]
  rfl

theorem push_zero (s : State) (h : ∀ i j, s.spring i j = s.dist i j) (i : Fin 8) : push s i = 0 := by
  unfold push
  apply Finset.sum_eq_zero
  intro j _
  funext c
  rw [h]
  simp

/-- At the start, the springs are relaxed. -/
theorem start_spring (s : State) (i j : Fin 8) :
    (act (reset s) fun _ => 20).spring i j = (reset s).dist i j := by
  have hd : ∀ i j, (reset s).dist i j = len (startPos 0 i - startPos 0 j) := by
    intro i j
    simp only [reset, distances_eq, startDif]
  have hsym : ∀ i j, (act (reset s) fun _ => 20).spring i j =
      (act (reset s) fun _ => 20).spring j i := by
    intro i j
    refine actLoop_symm _ _ _ _ ?_ i j
    intro i j
    simp only [reset, distances_eq]
    exact len_symm _ _
  have hedge : ∀ i j, (i, j) ∈ edges →
      (act (reset s) fun _ => 20).spring i j = (reset s).dist i j := by
    intro i j h
    obtain ⟨n, hn, he⟩ := List.mem_iff_getElem.1 h
    have hn12 : n < 12 := by rw [edges_eq] at hn; simpa using hn
    have hs : edges[(⟨n, hn12⟩ : Fin 12).val]? = some (i, j) := by
      rw [List.getElem?_eq_getElem hn, he]
    rw [act_edge (reset s) (fun _ => 20) ⟨n, hn12⟩ (i, j) hs, hd, edge_len ⟨n, hn12⟩ (i, j) hs]
  by_cases h1 : (i, j) ∈ edges
  · exact hedge i j h1
  · by_cases h2 : (j, i) ∈ edges
    · rw [hsym, hedge j i h2, hd, hd, len_symm]
    · exact actLoop_other _ _ i j h1 h2 _ _

end Verif.FlexCube

namespace Verif.Props

open Verif.FlexCube

/-- **C166 (the edges of the cube).**  The springs that actions control are the twelve pairs of
points that differ in exactly one coordinate; at the start each has the length 20. -/
theorem C166_edges : edges.length = 12 ∧ edges.Nodup ∧
    (∀ i j : Fin 8, (i, j) ∈ edges ↔
      i < j ∧ (Nat.xor i.val j.val = 1 ∨ Nat.xor i.val j.val = 2 ∨ Nat.xor i.val j.val = 4)) ∧
    ∀ e ∈ edges, ∀ h, len (startPos h e.1 - startPos h e.2) = 20 := by
  refine ⟨by decide, by decide, by decide, ?_⟩
  intro e he h
  obtain ⟨n, hn, hne⟩ := List.mem_iff_getElem.1 he
  have hn12 : n < 12 := by rw [edges_eq] at hn; simpa using hn
  rw [startDif]
  exact edge_len ⟨n, hn12⟩ e (by rw [List.getElem?_eq_getElem hn, hne])

/-- **C166 (histories).**  After any sequence of actions and resets of a new environment, the
distances are those of the points, no point is below the floor, the springs of the edges have the
lengths of the last action, which is in the range from 14 to 26, and all other springs have the
lengths of the diagonals of the cube at the start. -/
theorem C166_histories (as : List Act) : Good (as.foldl State.act newEnv) :=
  good_run as newEnv good_new

example : (fun k : Fin 12 => normAct (fun _ => 30) k) = fun _ => 26 := by
  funext k
  simp only [normAct, minAkt_eq, maxAkt_eq]
  norm_num

/-- **C166 (momentum).**  The forces between the points cancel: as long as no point touches the
floor, the sum of the velocities is changed by gravity and damping only. -/
theorem C166_momentum (as : List Act) (a : Fin 12 → ℝ)
    (hfree : ∀ i, 0 < (performAction (as.foldl State.act newEnv) a).pos i 1) :
    ∑ i, (performAction (as.foldl State.act newEnv) a).vel i =
      (1 - 0.4 * 0.02 : ℝ) • (∑ i, (as.foldl State.act newEnv).vel i +
        (8 * 0.02 : ℝ) • ![0, -100, 0]) := by
  set s := as.foldl State.act newEnv
  have hs : Good s := C166_histories as
  have hv : ∀ i, (performAction s a).vel i = freeVel (pushed s (normAct a)) i := by
    intro i
    have hp : (performAction s a).pos i = landPos (freePos (pushed s (normAct a)) i) := rfl
    have hnot : ¬ freePos (pushed s (normAct a)) i 1 < 0 := by
      intro hlt
      have := hfree i
      rw [hp, landPos, if_pos hlt] at this
      simp at this
    show landVel (freePos (pushed s (normAct a)) i) (freeVel (pushed s (normAct a)) i) = _
    rw [landVel, if_neg hnot]
  simp only [hv]
  exact free_sum s (normAct a) hs

/-- **C166 (floor).**  In every step, each point either moves with its new velocity, or it stops at
the floor and bounces: its horizontal velocity is lost and it moves upwards. -/
theorem C166_floor (as : List Act) (a : Fin 12 → ℝ) (i : Fin 8) :
    let s := as.foldl State.act newEnv
    let s' := performAction s a
    (s'.pos i = s.pos i + (0.02 : ℝ) • s'.vel i) ∨
      (s'.pos i 1 = 0 ∧ s'.vel i 0 = 0 ∧ s'.vel i 2 = 0 ∧ 0 < s'.vel i 1) := by
  intro s s'
  have hs : Good s := C166_histories as
  have hp : s'.pos i = landPos (freePos (pushed s (normAct a)) i) := rfl
  have hv : s'.vel i = landVel (freePos (pushed s (normAct a)) i)
      (freeVel (pushed s (normAct a)) i) := rfl
  by_cases h : freePos (pushed s (normAct a)) i 1 < 0
  · right
    rw [hp, hv, landPos, landVel, if_pos h, if_pos h]
    refine ⟨by simp, by simp, by simp, ?_⟩
    have h0 := hs.floor i
    have h1 : freePos (pushed s (normAct a)) i 1 =
        s.pos i 1 + dt * freeVel (pushed s (normAct a)) i 1 := rfl
    rw [h1] at h
    have h2 : (0 : ℝ) < dt := by unfold dt; norm_num
    simp only [Pi.mul_apply, Matrix.cons_val_one, Matrix.cons_val_zero, mul_neg, mul_one]
    nlinarith
  · left
    rw [hp, hv, landPos, landVel, if_neg h, if_neg h]
    rfl

/-- **C166 (centre).**  After every action the centre of gravity is the mean of the points. -/
theorem C166_center (s : State) (a : Fin 12 → ℝ) (c : Fin 3) :
    (performAction s a).center c = (∑ i, (performAction s a).pos i c) / 8 := rfl

/-- **C166 (springs).**  In every step, each point is pulled towards the points to which its spring
is too long and pushed away from those to which it is too short; gravity and damping are added. -/
theorem C166_springs (as : List Act) (a : Fin 12 → ℝ) (i : Fin 8)
    (hfree : 0 < (performAction (as.foldl State.act newEnv) a).pos i 1) :
    let s := as.foldl State.act newEnv
    let s' := performAction s a
    ∃ κ : Fin 8 → ℝ, (∀ j, SignType.sign (κ j) =
        SignType.sign (len (s.pos i - s.pos j) - s'.spring i j)) ∧
      s'.vel i = (1 - 0.4 * 0.02 : ℝ) •
        (s.vel i + ∑ j, κ j • (s.pos j - s.pos i) + (0.02 : ℝ) • ![0, -100, 0]) := by
  intro s s'
  have hs : Good s := C166_histories as
  have hp : s'.pos i = landPos (freePos (pushed s (normAct a)) i) := rfl
  have hnot : ¬ freePos (pushed s (normAct a)) i 1 < 0 := by
    intro hlt
    have : 0 < s'.pos i 1 := hfree
    rw [hp, landPos, if_pos hlt] at this
    simp at this
  have hv : s'.vel i = freeVel (pushed s (normAct a)) i := by
    show landVel (freePos (pushed s (normAct a)) i) (freeVel (pushed s (normAct a)) i) = _
    rw [landVel, if_neg hnot]
  refine ⟨fun j => (s.dist i j - s'.spring i j) * (stiffness * dt / (s.dist i j + 0.0000000001)), fun j => ?_, ?_⟩
  · have hd : 0 ≤ s.dist i j := by rw [hs.dist]; exact Real.sqrt_nonneg _
    have hc : 0 < stiffness * dt / (s.dist i j + 0.0000000001) := by
      apply div_pos
      · unfold stiffness dt; norm_num
      · have : (0 : ℝ) < 0.0000000001 := by norm_num
        linarith
    rw [sign_mul, sign_pos hc, mul_one, hs.dist]
  · rw [hv]
    have hpush : push (pushed s (normAct a)) i = ∑ j, ((s.dist i j - s'.spring i j) * (stiffness * dt / (s.dist i j + 0.0000000001))) • (s.pos j - s.pos i) := by
      unfold push
      apply Finset.sum_congr rfl
      intro j _
      funext c
      have h1 : (pushed s (normAct a)).dif i j = s.pos i - s.pos j := hs.dif i j
      have h2 : (pushed s (normAct a)).dist i j = s.dist i j := rfl
      have h3 : (pushed s (normAct a)).spring i j = s'.spring i j := rfl
      rw [h1, h2, h3]
      simp only [Pi.smul_apply, Pi.sub_apply, smul_eq_mul]
      ring
    funext c
    simp only [freeVel]
    rw [hpush]
    have hvel : (pushed s (normAct a)).vel i = s.vel i := rfl
    rw [hvel]
    simp only [Pi.sub_apply, Pi.smul_apply, smul_eq_mul, Pi.add_apply]
    unfold dumping dt grav
    ring

/-- **C166 (the place does not matter).**  A cube that starts at another place of the floor moves in
the same way there. -/
theorem C166_translation (t : Vec) (ht : t 1 = 0) (as : List (Fin 12 → ℝ)) : ∀ s : State,
    as.foldl performAction (shift t s) = shift t (as.foldl performAction s) := by
  induction as with
  | nil => intro s; rfl
  | cons a as ih => intro s; rw [List.foldl_cons, perform_shift t s a ht, ih, List.foldl_cons]

example : (![5, 0, -3] : Vec) 1 = 0 := by simp

/-- **C166 (relaxed springs).**  If all edges have their length at the start, the springs do not move
the points after a reset. -/
theorem C166_relaxed (s : State) (i : Fin 8) :
    (performAction (reset s) fun _ => 20).vel i 0 = 0 ∧
      (performAction (reset s) fun _ => 20).vel i 2 = 0 := by
  have hn : normAct (fun _ => 20) = fun _ => 20 := by
    funext k
    simp only [normAct, minAkt_eq, maxAkt_eq]
    norm_num
  have hp : push (pushed (reset s) fun _ => 20) i = 0 := by
    apply push_zero
    exact start_spring s
  have hf : freeVel (pushed (reset s) fun _ => 20) i = (1 - dumping * dt) • (dt • grav) := by
    funext c
    simp only [freeVel, hp]
    have : (pushed (reset s) fun _ => 20).vel i = 0 := rfl
    rw [this]
    simp only [zero_add, Pi.sub_apply, Pi.smul_apply, smul_eq_mul]
    ring
  have hv : (performAction (reset s) fun _ => 20).vel i =
      landVel (freePos (pushed (reset s) fun _ => 20) i) (freeVel (pushed (reset s) fun _ => 20) i) := by
    show landVel (freePos (pushed (reset s) (normAct fun _ => 20)) i)
      (freeVel (pushed (reset s) (normAct fun _ => 20)) i) = _
    rw [hn]
  rw [hv, hf, landVel]
  split_ifs <;> simp [grav]

/-- **C166 (a reset state is a new one), false.**  The constructor lets the cube fall for one step
after its reset: the upper points of a new environment are lower than after a reset.  A reset does not
compute the centre of gravity anew: it is the one of the last state. -/
theorem C166_negation_reset :
    newEnv.pos 2 1 < (reset newEnv).pos 2 1 ∧ (∀ s, (reset s).center = s.center) ∧
      (reset newEnv).center 1 < (∑ i, (reset newEnv).pos i 1) / 8 := by
  have hp : ∀ i, push (act { reset newEnv with count := 0 } fun _ => 20) i = 0 := by
    intro i
    apply push_zero
    exact start_spring newEnv
  have hy : ∀ i, newEnv.pos i 1 =
      landPos (startPos 10 i + dt • ((1 - dumping * dt) • (dt • grav))) 1 := by
    intro i
    have h1 : newEnv.pos i = landPos (freePos (act { reset newEnv with count := 0 } fun _ => 20) i) := by
      rfl
    rw [h1]
    have h2 : freeVel (act { reset newEnv with count := 0 } fun _ => 20) i =
        (1 - dumping * dt) • (dt • grav) := by
      funext c
      simp only [freeVel, hp]
      have : (act { reset newEnv with count := 0 } fun _ => 20).vel i = 0 := rfl
      rw [this]
      simp only [zero_add, Pi.sub_apply, Pi.smul_apply, smul_eq_mul]
      ring
    rw [freePos, h2]
    rfl
  have hfall : ∀ i, (startPos 10 i + dt • ((1 - dumping * dt) • (dt • grav))) 1 < startPos 10 i 1 := by
    intro i
    simp only [Pi.add_apply, Pi.smul_apply, smul_eq_mul, grav, dt, dumping, Matrix.cons_val_one,
      Matrix.cons_val_zero]
    norm_num
  have hle : ∀ i, newEnv.pos i 1 ≤ startPos 10 i 1 := by
    intro i
    rw [hy, landPos]
    split_ifs with h
    · simp only [Function.update_self]
      exact start_floor 10 le_rfl i
    · exact (hfall i).le
  have h2 : newEnv.pos 2 1 < startPos 10 2 1 := by
    rw [hy, landPos]
    split_ifs with h
    · simp [startPos, side]
      norm_num
    · exact hfall 2
  have hr : ∀ i, (reset newEnv).pos i = startPos 10 i := fun i => rfl
  refine ⟨by rw [hr]; exact h2, fun s => rfl, ?_⟩
  have hc : (reset newEnv).center 1 = (∑ i, newEnv.pos i 1) / 8 := rfl
  rw [hc]
  simp only [hr]
  have : ∑ i, newEnv.pos i 1 < ∑ i, startPos 10 i 1 :=
    Finset.sum_lt_sum (fun i _ => hle i) ⟨2, Finset.mem_univ _, h2⟩
  linarith

end Verif.Props

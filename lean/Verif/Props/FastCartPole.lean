import Verif.Lemmas.FastCartPole
/-
Property theorem C179 (pybrain/rl/environments/cartpole/fast_version).
-/
namespace Verif.FastCart

/-- the world after the first `k` of some actions -/
noncomputable def after (w : World) (as : List (ℝ × Junk × Junk)) (k : Nat) : World := (as.take k).foldl (fun w x => doAction x.2.1 x.2.2 x.1 w) w

theorem performAll_world (as : List (ℝ × Junk × Junk)) : ∀ (t : Task) (w : World), (performAll t w as).2 = after w as as.length := by
  induction as with
  | nil => intro t w; rfl
  | cons x as ih => intro t w; rw [performAll, ih]; simp [after, performAction]

theorem after_frame (w : World) (as : List (ℝ × Junk × Junk)) (k : Nat) (hk : k ≤ as.length) :
    (after w as k).numPoles = w.numPoles ∧ (after w as k).maxsteps = w.maxsteps ∧ (after w as k).steps = w.steps + k := by
  induction k with
  | zero => simp [after]
  | succ k ih =>
    obtain ⟨h1, h2, h3⟩ := ih (by omega)
    have e : after w as (k + 1) = doAction (as[k]'(by omega)).2.1 (as[k]'(by omega)).2.2 (as[k]'(by omega)).1 (after w as k) := by
      unfold after
      rw [List.take_add_one, List.foldl_append, List.getElem?_eq_getElem (by omega)]
      rfl
    obtain ⟨f1, f2, f3, f4⟩ := doAction_frame (as[k]'(by omega)).2.1 (as[k]'(by omega)).2.2 (as[k]'(by omega)).1 (after w as k)
    rw [e]
    refine ⟨f1.trans h1, f3.trans h2, ?_⟩
    rw [f4, h3]; push_cast; ring

open Classical in
theorem performAll_reward (as : List (ℝ × Junk × Junk)) : ∀ (t : Task) (w : World), t.samples = 0 →
    (performAll t w as).1.cumreward = t.cumreward + ((List.range as.length).countP (fun k => decide (¬ Outside (after w as (k + 1)))) : ℝ) ∧ (performAll t w as).1.samples = 0 := by
  induction as with
  | nil => intro t w h; simp [performAll, h]
  | cons x as ih =>
    intro t w h
    obtain ⟨h1, h2⟩ := ih (performAction x.2.1 x.2.2 x.1 t w).1 (performAction x.2.1 x.2.2 x.1 t w).2 h
    have e : performAll t w (x :: as) = performAll (performAction x.2.1 x.2.2 x.1 t w).1 (performAction x.2.1 x.2.2 x.1 t w).2 as := rfl
    rw [e]
    refine ⟨?_, h2⟩
    rw [h1]
    have hr : (performAction x.2.1 x.2.2 x.1 t w).1.cumreward = t.cumreward + (if Outside (after w (x :: as) 1) then 0 else 1) := by
      have ha : after w (x :: as) 1 = doAction x.2.1 x.2.2 x.1 w := by simp [after]
      rw [ha]
      unfold performAction
      dsimp only
      rw [h]
      have hg : getReward (doAction x.2.1 x.2.2 x.1 w) = if Outside (doAction x.2.1 x.2.2 x.1 w) then 0 else 1 := by
        unfold getReward getR; split_ifs <;> norm_num
      cases t.discount with
      | none => rw [← hg]
      | some γ => dsimp only; rw [pow_zero, one_mul, ite_self, ← hg]
    rw [hr, List.length_cons, List.range_succ_eq_map, List.countP_cons, List.countP_map]
    have hc : (fun k => decide (¬ Outside (after w (x :: as) (k + 1)))) ∘ Nat.succ =
        fun k => decide (¬ Outside (after (performAction x.2.1 x.2.2 x.1 t w).2 as (k + 1))) := by
      funext k
      rfl
    rw [hc]
    by_cases ho : Outside (after w (x :: as) (0 + 1)) <;> simp [ho] <;> ring

end Verif.FastCart

namespace Verif.Props
open Verif.FastCart Verif.FastCart.Spec Real
open Verif.DataSet (Err)

/-- **C179, equations of motion.** In every state and under every action the program's accelerations are the only solution of the equations of motion of a cart with one or
two uniform poles with friction at their hinges. -/
theorem C179_motion (np : Nat) (a : ℝ) (y d : Arr) : Motion np (force a) y d ↔ d = field np a y :=
  ⟨fun h => motion_unique np _ y _ _ h (field_motion np a y), fun h => h ▸ field_motion np a y⟩

/-- a hanging pole on a cart pushed with full force -/
example : Motion 1 (force 1) (fun i => if i = 2 then π else 0) (field 1 1 (fun i => if i = 2 then π else 0)) ∧ force 1 = 10 := by
  refine ⟨field_motion _ _ _, ?_⟩
  rw [force_nonneg (by norm_num)]; norm_num

/-- **C179, integration.** An action moves the cart and the poles by two classical Runge-Kutta steps of a hundredth of a second for these equations of motion,
whatever the memory of the program holds. It is counted as one step. -/
theorem C179_integration (j j' : Junk) (a : ℝ) (w : World) (G : Arr → Arr) (hG : ∀ y, Motion w.numPoles (force a) y (G y)) :
    (doAction j j' a w).state = rungeKutta G 0.01 (rungeKutta G 0.01 w.state) ∧ (doAction j j' a w).steps = w.steps + 1 := by
  have : G = field w.numPoles a := by funext y; exact (C179_motion _ _ _ _).1 (hG y)
  rw [this]
  exact ⟨doAction_state j j' a w, rfl⟩

/-- **C179, force.** Actions between -1 and 1 (and not close to 0) give that part of ten Newton; larger ones are cut. -/
theorem C179_force (a : ℝ) : |force a| ≤ 10 ∧ (1 / 256 ≤ |a| → |a| ≤ 1 → force a = 10 * a) ∧ (1 ≤ a → force a = 10) ∧ (a ≤ -1 → force a = -10) := by
  rcases le_or_gt 0 a with h | h
  · rw [force_nonneg h]
    refine ⟨?_, ?_, ?_, fun h' => by linarith⟩
    · rw [abs_of_nonneg (le_min (by norm_num) (le_max_of_le_left (by norm_num)))]; exact min_le_left _ _
    · intro h1 h2
      rw [abs_of_nonneg h] at h1 h2
      rw [max_eq_right (by norm_num at *; linarith), min_eq_right (by linarith)]; ring
    · intro h1
      rw [max_eq_right (by norm_num at *; linarith), min_eq_left (by linarith)]
  · have := force_negative (a := -a) (by linarith)
    rw [neg_neg] at this
    rw [this]
    refine ⟨?_, ?_, fun h' => by linarith, ?_⟩
    · rw [abs_neg, abs_of_nonneg (le_min (by norm_num) (le_max_of_le_left (by norm_num)))]; exact min_le_left _ _
    · intro h1 h2
      rw [abs_of_neg h] at h1 h2
      rw [max_eq_right (by norm_num at *; linarith), min_eq_right (by linarith)]; ring
    · intro h1
      rw [max_eq_right (by norm_num at *; linarith), min_eq_left (by linarith)]

/-- **C179, symmetry.** The mirrored action in the mirrored state has the mirrored effect, unless the action is 0. -/
theorem C179_mirror (j j' i i' : Junk) (a : ℝ) (ha : a ≠ 0) (w : World) :
    (doAction j j' (-a) { w with state := -w.state }).state = -(doAction i i' a w).state := by
  rw [doAction_state, doAction_state]
  dsimp only
  rw [rungeKutta_neg (field_neg w.numPoles ha), rungeKutta_neg (field_neg w.numPoles ha)]

/-- **C179 negated: doing nothing.** The action 0 pushes the cart to the right: with upright poles at rest the cart gets into motion. -/
theorem C179_negation_zero (np : Nat) : force 0 = 10 / 256 ∧ 0 < field np 0 0 1 := by
  have hf : force 0 = 10 / 256 := by rw [force_nonneg (le_refl 0)]; norm_num
  refine ⟨hf, ?_⟩
  have hu : used np 1 := by unfold used; split_ifs <;> decide
  have e : field np 0 0 1 = (force 0 + fi m1 l1 0 0 + (if np > 1 then fi m2 l2 0 0 else 0)) / (mi m1 0 + (if np > 1 then mi m2 0 else 0) + mc) := by
    unfold field
    rw [if_pos hu]
    simp [velocities, step]
  have z : ∀ m l, fi m l 0 0 = 0 := by intro m l; simp [fi, temp]
  rw [e, hf, z, z, ite_self]
  apply div_pos (by norm_num)
  have h1 := mi_pos m1_pos 0
  have h2 := mi_pos m2_pos 0
  unfold mc
  split_ifs <;> linarith

/-- **C179, observations.** With one or two poles and no further observations, the agent sees the cart and the poles, in fixed units: velocities and angles of the poles and
of the cart, or the angles and the position only. The length of the observation is the one announced. -/
theorem C179_observation (np : Nat) (hnp : np = 1 ∨ np = 2) (markov : Bool) (t : Task) (w : World) (hw : w.markov = markov ∧ w.numPoles = np)
    (ht : t.markov = markov ∧ t.numPoles = np ∧ t.extraObservations = false ∧ t.extraRandoms = 0) (draws : List ℝ) :
    ∃ obs, getObservation t w draws = .ok obs ∧ obs.length = outdim t ∧
      let cart := 10 * (w.state 0 / 2.4 - 0.01)
      let cartV := w.state 1 - 0.1
      obs = if markov then
          (if np = 1 then [cartV, w.state 2 / 0.2094384, 2 * w.state 3, cart]
           else [cartV, w.state 2 / 0.2094384, 2 * w.state 3, w.state 4 / 0.628329, w.state 5 / 16, cart])
        else (if np = 1 then [w.state 2 / 0.2094384, cart] else [w.state 2 / 0.2094384, w.state 4 / 0.52, cart]) := by
  obtain ⟨h1, h2⟩ := hw
  obtain ⟨t1, t2, t3, t4⟩ := ht
  have e : getObservation t w draws = .ok (resize (outdim t) (getObs w)) := by
    unfold getObservation
    rw [t3, t4]
    rfl
  have hlen : (getObs w).length = outdim t := by
    unfold getObs outdim
    rw [h1, h2, t1, t2, t3, t4]
    rcases hnp with rfl | rfl <;> cases markov <;> rfl
  have hr : resize (outdim t) (getObs w) = getObs w := by
    unfold resize
    rw [← hlen, List.take_length, Nat.sub_self, List.replicate_zero, List.append_nil]
  refine ⟨getObs w, by rw [e, hr], hlen, ?_⟩
  unfold getObs
  rw [h1, h2]
  rcases hnp with rfl | rfl <;> cases markov <;> simp [twelveDegrees, thirtySixDegrees] <;> (try constructor) <;> (try constructor) <;> ring

/-- a new task -/
example (w0 : World) (draws : List ℝ) : ∃ obs, getObservation (newTask 2 true false 0 100 none w0).1 (newTask 2 true false 0 100 none w0).2 draws = .ok obs ∧ obs.length = 6 := by
  obtain ⟨obs, h1, h2, -⟩ := C179_observation 2 (Or.inr rfl) true (newTask 2 true false 0 100 none w0).1 (newTask 2 true false 0 100 none w0).2 ⟨rfl, rfl⟩ ⟨rfl, rfl, rfl, rfl⟩ draws
  exact ⟨obs, h1, h2⟩

/-- the poles or the cart are outside their limits -/
def Fallen (np : Nat) (y : Arr) : Prop :=
  2.4 < |y 0| ∨ (if np ≤ 1 then 0.2094384 < |y 2| else 0.628329 < |y 2| ∨ 0.628329 < |y 4|)

open Classical in
/-- **C179, episodes.** In an episode every action after which the poles still stand and the cart is on its track is rewarded by 1, the others by 0. The episode is over if and only if
the poles have fallen (or the cart has left its track) or more than the maximal number of actions have been made. -/
theorem C179_episode (numPoles : Nat) (markov extraObservations : Bool) (extraRandoms : Nat) (maxSteps : Int) (w0 : World) (as : List (ℝ × Junk × Junk)) :
    let s := newTask numPoles markov extraObservations extraRandoms maxSteps none w0
    let r := performAll s.1 s.2 as
    r.1.cumreward = ((List.range as.length).countP fun k => decide (¬ Fallen numPoles (after s.2 as (k + 1)).state) : ℝ) ∧
      (Finished r.2 ↔ Fallen numPoles (after s.2 as as.length).state ∨ maxSteps < as.length) := by
  intro s r
  have hout : ∀ k, k ≤ as.length → (Outside (after s.2 as k) ↔ Fallen numPoles (after s.2 as k).state) := by
    intro k hk
    have hn : (after s.2 as k).numPoles = numPoles := (after_frame s.2 as k hk).1
    unfold Outside Fallen thirtySixDegrees twelveDegrees
    rw [hn]
    by_cases h : numPoles > 1
    · rw [if_pos h, if_neg (by omega)]
    · rw [if_neg h, if_pos (by omega)]
  obtain ⟨h1, -⟩ := performAll_reward as s.1 s.2 rfl
  have hw : r.2 = after s.2 as as.length := performAll_world as s.1 s.2
  obtain ⟨-, g2, g3⟩ := after_frame s.2 as as.length (le_refl _)
  constructor
  · rw [h1]
    have hz : s.1.cumreward = 0 := rfl
    rw [hz, zero_add]
    congr 1
    apply List.countP_congr
    intro k hk
    rw [List.mem_range] at hk
    simp only [decide_eq_true_eq, hout (k + 1) (by omega)]
  · unfold Finished
    rw [hw, hout _ (le_refl _), g2, g3]
    have e1 : s.2.maxsteps = maxSteps := rfl
    have e2 : s.2.steps = 0 := rfl
    rw [e1, e2, zero_add]

/-- **C179, further episodes.** After any actions, a reset begins a new episode like the first one: from the same state of cart and poles, with no reward and no steps. -/
theorem C179_again (numPoles : Nat) (markov extraObservations : Bool) (extraRandoms : Nat) (maxSteps : Int) (discount : Option ℝ) (w0 : World) (as : List (ℝ × Junk × Junk)) :
    let s := newTask numPoles markov extraObservations extraRandoms maxSteps discount w0
    let r := performAll s.1 s.2 as
    let s' := taskReset r.1 r.2
    s'.1.cumreward = 0 ∧ s'.2.steps = 0 ∧ s'.2.state = s.2.state ∧ s'.2.numPoles = numPoles ∧ s'.2.maxsteps = maxSteps := by
  intro s r s'
  obtain ⟨h1, h2, h3⟩ := after_frame s.2 as as.length (le_refl _)
  have hw : r.2 = after s.2 as as.length := performAll_world as s.1 s.2
  exact ⟨rfl, rfl, rfl, (congrArg World.numPoles hw).trans h1, (congrArg World.maxsteps hw).trans h2⟩

/-- **C179, random observations.** With any number of additional random observations (and no coordinates) the agent sees cart and poles as without them, followed by
the random numbers. -/
theorem C179_randoms (np : Nat) (hnp : np = 1 ∨ np = 2) (markov : Bool) (t : Task) (w : World) (hw : w.markov = markov ∧ w.numPoles = np)
    (ht : t.markov = markov ∧ t.numPoles = np ∧ t.extraObservations = false) (draws : List ℝ) (hd : draws.length = t.extraRandoms) (obs : List ℝ)
    (hobs : getObservation { t with extraRandoms := 0 } w draws = .ok obs) : getObservation t w draws = .ok (obs ++ draws) := by
  obtain ⟨w1, w2⟩ := hw
  obtain ⟨t1, t2, t3⟩ := ht
  have hlen : (getObs w).length = (1 + np) * (if markov then 2 else 1) := by
    unfold getObs
    rcases hnp with h | h <;> subst h <;> rw [w2] <;> cases markov <;> rw [w1] <;> simp
  have e0 : outdim { t with extraRandoms := 0 } = (getObs w).length := by unfold outdim; simp [t1, t2, t3, hlen]
  have e1 : outdim t = (getObs w).length + t.extraRandoms := by unfold outdim; simp [t1, t2, t3, hlen]
  have h0 : obs = getObs w := by
    unfold getObservation at hobs
    rw [e0] at hobs
    simp only [t3, Bool.false_eq_true, if_false, lt_irrefl, resize, List.take_length, Nat.sub_self, List.replicate_zero, List.append_nil] at hobs
    exact (Except.ok.inj hobs).symm
  subst h0
  unfold getObservation
  rw [e1]
  simp only [t3, Bool.false_eq_true, if_false, resize]
  rw [List.take_of_length_le (by omega), Nat.add_sub_cancel_left]
  by_cases hz : t.extraRandoms > 0
  · show Except.ok (if t.extraRandoms > 0 then _ else _) = _
    rw [if_pos hz]
    congr 1
    simp [← hd]
  · show Except.ok (if t.extraRandoms > 0 then _ else _) = _
    rw [if_neg hz]
    have hn : t.extraRandoms = 0 := by omega
    have : draws = [] := List.length_eq_zero_iff.1 (by omega)
    simp [hn, this]

example (w0 : World) : ∃ obs, getObservation (newTask 2 true false 3 100 none w0).1 (newTask 2 true false 3 100 none w0).2 [1, 2, 3] = .ok (obs ++ [1, 2, 3]) ∧ obs.length = 6 := by
  obtain ⟨obs, h1, h2, -⟩ := C179_observation 2 (Or.inr rfl) true { (newTask 2 true false 3 100 none w0).1 with extraRandoms := 0 } (newTask 2 true false 3 100 none w0).2
    ⟨rfl, rfl⟩ ⟨rfl, rfl, rfl, rfl⟩ [1, 2, 3]
  exact ⟨obs, C179_randoms 2 (Or.inr rfl) true _ _ ⟨rfl, rfl⟩ ⟨rfl, rfl, rfl⟩ _ rfl obs h1, h2⟩

/-- **C179, success.** As long as nothing falls, the total reward is the number of actions; the episode then has `maxSteps + 1` actions and its total reward exceeds the desired value. -/
theorem C179_success (numPoles : Nat) (markov extraObservations : Bool) (extraRandoms maxSteps : Nat) (w0 : World) (as : List (ℝ × Junk × Junk)) :
    let s := newTask numPoles markov extraObservations extraRandoms maxSteps none w0
    let r := performAll s.1 s.2 as
    (∀ k, 1 ≤ k → k ≤ as.length → ¬ Fallen numPoles (after s.2 as k).state) →
      r.1.cumreward = as.length ∧ r.1.desiredValue = maxSteps ∧ (as ≠ [] → (Finished r.2 ↔ maxSteps + 1 ≤ as.length)) := by
  intro s r h
  classical
  obtain ⟨h1, h2⟩ := C179_episode numPoles markov extraObservations extraRandoms maxSteps w0 as
  refine ⟨?_, ?_, ?_⟩
  · have e : ((List.range as.length).countP fun k => decide (¬ Fallen numPoles (after s.2 as (k + 1)).state)) = as.length := by
      have : (List.range as.length).countP (fun k => decide (¬ Fallen numPoles (after s.2 as (k + 1)).state)) = (List.range as.length).length := by
        rw [List.countP_eq_length]
        intro k hk
        rw [List.mem_range] at hk
        simpa using h (k + 1) (by omega) (by omega)
      rw [this, List.length_range]
    have h1' : r.1.cumreward = _ := h1
    rw [h1', e]
  · have : ∀ (l : List (ℝ × Junk × Junk)) (t : Task) (w : World), (performAll t w l).1.desiredValue = t.desiredValue := by
      intro l
      induction l with
      | nil => intro t w; rfl
      | cons x l ih => intro t w; rw [performAll, ih]; rfl
    exact this as s.1 s.2
  · intro hne
    have hl : 0 < as.length := List.length_pos_iff.2 hne
    have h2' : Finished r.2 ↔ _ := h2
    rw [h2']
    constructor
    · rintro (h3 | h3)
      · exact absurd h3 (h _ hl (le_refl _))
      · have : (maxSteps : Int) < as.length := h3
        omega
    · intro h3; right; omega

/-- an episode that has just begun: nothing has fallen -/
example (w0 : World) : ¬ Fallen 2 (newTask 2 true false 0 100 none w0).2.state := by
  have e : (newTask 2 true false 0 100 none w0).2.state = fun i => if i = 2 then 4.0156035 * oneDegree else 0 := rfl
  rw [e]
  unfold Fallen oneDegree
  simp
  refine ⟨by norm_num, ?_⟩
  rw [abs_of_nonneg (by norm_num)]; norm_num

/-- **C179 negated: discount.** A discount factor has no effect on the total reward, since the task does not count its samples. -/
theorem C179_negation_discount (as : List (ℝ × Junk × Junk)) (t : Task) (w : World) (ht : t.samples = 0) (γ : ℝ) :
    (performAll { t with discount := some γ } w as).1.cumreward = (performAll { t with discount := none } w as).1.cumreward := by
  classical
  rw [(performAll_reward as { t with discount := some γ } w ht).1, (performAll_reward as { t with discount := none } w ht).1]

/-- **C179 negated: several tasks.** The class means to allow one instance only, but a second one can be made; it takes over the simulation of the first one, which then shows
observations of the second one's kind. -/
theorem C179_negation_singleton (w0 : World) (draws : List ℝ) :
    let s1 := newTask 1 true false 0 100 none w0
    let s2 := newTask 1 false false 0 100 none s1.2
    s2.2.markov = false ∧ ∃ x y, getObservation s1.1 s2.2 draws = .ok [x, y, 0, 0] := by
  intro s1 s2
  refine ⟨rfl, s2.2.state 2 / twelveDegrees, 10 * (s2.2.state 0 / 2.4 - 0.01), ?_⟩
  have e : getObservation s1.1 s2.2 draws = .ok (resize (outdim s1.1) (getObs s2.2)) := rfl
  rw [e]
  rfl

/-- **C179 negated: three poles.** Tasks with three or more poles can be made; all their observations are zero. -/
theorem C179_negation_poles (np : Nat) (h : 2 < np) (markov : Bool) (t : Task) (w : World) (hw : w.numPoles = np)
    (ht : t.markov = markov ∧ t.numPoles = np ∧ t.extraObservations = false ∧ t.extraRandoms = 0) (draws : List ℝ) :
    getObservation t w draws = .ok (List.replicate (outdim t) 0) := by
  obtain ⟨t1, t2, t3, t4⟩ := ht
  have hg : getObs w = [] := by unfold getObs; rw [hw, if_neg (by omega), if_neg (by omega)]
  have e : getObservation t w draws = .ok (resize (outdim t) (getObs w)) := by
    unfold getObservation
    rw [t3, t4]
    rfl
  rw [e, hg]
  simp [resize]

/-- **C179 negated: Cartesian coordinates.** The additional observations are meant to be the coordinates of the tip of the pole. They do not depend on the position of the cart, and instead
of the angle they use the angle divided by twelve degrees. -/
theorem C179_negation_coordinates (t : Task) (w : World) (hw : w.markov = true ∧ w.numPoles = 1)
    (ht : t.markov = true ∧ t.numPoles = 1 ∧ t.extraObservations = true ∧ t.extraRandoms = 0) (draws : List ℝ) :
    getObservation t w draws = .ok (getObs w ++ [0.1 * sin (w.state 2 / twelveDegrees) + 0, 0.1 * cos (w.state 2 / twelveDegrees) + 0]) := by
  obtain ⟨h1, h2⟩ := hw
  obtain ⟨t1, t2, t3, t4⟩ := ht
  have hd : outdim t = 6 := by unfold outdim; rw [t1, t2, t3, t4]; rfl
  unfold getObservation
  rw [hd]
  unfold extras getObs
  rw [h1, h2, t1, t2, t3, t4]
  rfl

/-- **C179 negated: additional random observations.** With one additional random observation and the coordinates, the place of the cart's velocity is overwritten by a coordinate. -/
theorem C179_negation_overwritten (t : Task) (w : World) (hw : w.markov = true ∧ w.numPoles = 1)
    (ht : t.markov = true ∧ t.numPoles = 1 ∧ t.extraObservations = true ∧ t.extraRandoms = 1) (x : ℝ) (draws : List ℝ) :
    getObservation t w (x :: draws) = .ok [0.1 * cos (w.state 2 / twelveDegrees) + 0, w.state 2 / twelveDegrees, 10 * w.state 3 / 5, (w.state 0 / 2.4 - 0.01) * 10, 0, 0, x] := by
  obtain ⟨h1, h2⟩ := hw
  obtain ⟨t1, t2, t3, t4⟩ := ht
  have hd : outdim t = 7 := by unfold outdim; rw [t1, t2, t3, t4]; rfl
  unfold getObservation
  rw [hd]
  unfold extras getObs
  rw [h1, h2, t1, t2, t3, t4]
  rfl

end Verif.Props

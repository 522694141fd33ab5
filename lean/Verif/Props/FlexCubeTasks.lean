import Verif.Props.FlexCube

/-!
# C167: sensors and tasks of the flexible cube
-/

namespace Verif.FlexCube

/-- The lengths of the twelve edges. -/
def lengths (s : State) : List ℝ := edges.map fun e => s.dist e.1 e.2

/-- The pain of an edge of a length. -/
noncomputable def painOf (x : ℝ) : ℝ := (min (max (x / 30) 1) 4 - 1) ^ 2

/-- The pain of a cube. -/
noncomputable def pain (s : State) : ℝ := ((lengths s).map painOf).sum

/-- The heights of the points. -/
def heights (s : State) : List ℝ := List.ofFn fun i : Fin 8 => s.pos i 1

/-- The height of the lowest point. -/
noncomputable def lowest (s : State) : ℝ := (heights s).foldl min (s.pos 0 1)

theorem edgeLengths_eq (s : State) : edgeLengths s = lengths s := by
  rw [edgeLengths, lengths, edges_eq]
  simp [edgeRows, row]

/-- A task that was constructed for a class: its sensors are those of the class. -/
structure Ready (cls : Class) (t : Task) : Prop where
  ofClass : t.cls = cls
  obs : t.obsSensors = obsSensorsOf cls
  rew : t.rewardSensor = rewardSensorOf cls
  sensors : t.env.sensors = obsSensorsOf cls ++ (rewardSensorOf cls).toList

/-- The classes that can be constructed and set their own sensors. -/
def Usable (cls : Class) : Prop := cls = .grow ∨ cls = .walk ∨ cls = .rollingUp ∨ cls = .jump

theorem obs_env (t : Task) : (getObservation t).2.env = t.env := rfl

theorem ready_obs (cls : Class) (t : Task) (h : Ready cls t) : Ready cls (getObservation t).2 :=
  ⟨h.ofClass, h.obs, h.rew, h.sensors⟩

theorem ready_reset (cls : Class) (t : Task) (h : Ready cls t) : Ready cls t.reset :=
  ⟨h.ofClass, h.obs, h.rew, h.sensors⟩

theorem getReward_fixed (t : Task) : (getReward t).2.cls = t.cls ∧
    (getReward t).2.obsSensors = t.obsSensors ∧ (getReward t).2.rewardSensor = t.rewardSensor ∧
    (getReward t).2.env = t.env ∧ (getReward t).2.epiStep = t.epiStep ∧
    (getReward t).2.epiLen = t.epiLen ∧ (getReward t).2.maxSpeed = t.maxSpeed ∧
    (getReward t).2.cumreward = t.cumreward ∧ (getReward t).2.samples = t.samples ∧
    (getReward t).2.reward = (getReward t).1 := by
  unfold getReward
  split_ifs <;> exact ⟨rfl, rfl, rfl, rfl, rfl, rfl, rfl, rfl, rfl, rfl⟩

/-- The action that a task sends to the cube. -/
noncomputable def sent (t : Task) (old a : Fin 12 → ℝ) : Fin 12 → ℝ := fun k =>
  min (max ((a k + 1) / 2 * taskDif + fraktMin * side) (old k - t.maxSpeed)) (old k + t.maxSpeed)

/-- The task just before the reward of a step is computed. -/
noncomputable def moved (t : Task) (old a : Fin 12 → ℝ) : Task :=
  { t with epiStep := t.epiStep + 1, env := performAction t.env (sent t old a), samples := t.samples + 1 }

theorem perform_eq (t : Task) (old a : Fin 12 → ℝ) (h : t.action = some old) :
    t.perform a = .ok { (getReward (moved t old a)).2 with
      cumreward := (getReward (moved t old a)).2.cumreward + (getReward (moved t old a)).1, action := some (sent t old a) } := by
  cases t
  simp only at h
  subst h
  rfl

theorem ready_perform (cls : Class) (t t' : Task) (a : Fin 12 → ℝ) (h : Ready cls t)
    (hp : t.perform a = .ok t') : Ready cls t' := by
  cases ha : t.action with
  | none =>
    unfold Task.perform at hp
    simp only [ha] at hp
    exact absurd hp (by simp)
  | some old =>
    rw [perform_eq t old a ha] at hp
    obtain rfl := Except.ok.inj hp
    obtain ⟨h1, h2, h3, h4, -⟩ := getReward_fixed (moved t old a)
    exact ⟨h1.trans h.ofClass, h2.trans h.obs, h3.trans h.rew, (congrArg State.sensors h4).trans h.sensors⟩

theorem read_edges (s : State) : readSensor s .edgesReal = (lengths s).map (· / 30) := by
  rw [readSensor, edgeLengths_eq]

theorem obs_edgeL (cls : Class) (t : Task) (hc : Usable cls) (h : Ready cls t) :
    (getObservation t).2.edgeL = (lengths t.env).map (· / 30) := by
  rw [← read_edges]
  unfold getObservation
  simp only [h.sensors]
  rcases hc with rfl | rfl | rfl | rfl <;> simp [obsSensorsOf, rewardSensorOf]

theorem pain_sum (l : List ℝ) : ((((l.map (· / 30)).map fun e => min (max e 1) 4)).map
    fun e => (e - 1) ^ 2).sum = (l.map painOf).sum := by
  rw [List.map_map, List.map_map]
  rfl

theorem getPain_eq (t : Task) (s : State) (h : t.edgeL = (lengths s).map (· / 30)) :
    (getPain t).1 = pain s := by
  rw [getPain, pain, h, ← pain_sum]

theorem raw_grow (t : Task) (h : Ready .grow t) :
    (getObservation t).2.rawReward = (lengths t.env).sum - 240 := by
  unfold getObservation
  simp only [h.sensors, h.rew]
  simp [obsSensorsOf, rewardSensorOf, readSensor, edgeLengths_eq]

theorem raw_walk (cls : Class) (hc : cls = .walk ∨ cls = .rollingUp) (t : Task) (h : Ready cls t) :
    (getObservation t).2.rawReward = len (onFloor t.env.center) * 0.00125 := by
  unfold getObservation
  simp only [h.sensors, h.rew]
  rcases hc with rfl | rfl <;> simp [obsSensorsOf, rewardSensorOf, readSensor]

theorem raw_jump (t : Task) (h : Ready .jump t) :
    (getObservation t).2.rawReward = lowest t.env := by
  unfold getObservation
  simp only [h.sensors, h.rew]
  simp [obsSensorsOf, rewardSensorOf, readSensor, lowest, heights]

/-- The state with the observation just made. -/
noncomputable def seen (t : Task) (old a : Fin 12 → ℝ) : Task := moved (getObservation t).2 old a

theorem step_eq (t t' : Task) (old a : Fin 12 → ℝ) (h : t.action = some old)
    (hp : (getObservation t).2.perform a = .ok t') :
    t'.reward = (getReward (seen t old a)).1 ∧ t'.cumreward = t.cumreward + t'.reward ∧
      t'.maxReward = (getReward (seen t old a)).2.maxReward ∧ t'.epiStep = t.epiStep + 1 ∧
      t'.epiLen = t.epiLen ∧ t'.samples = t.samples + 1 ∧ t'.action = some (sent t old a) ∧
      t'.env = performAction t.env (sent t old a) ∧ t'.maxSpeed = t.maxSpeed := by
  rw [perform_eq (getObservation t).2 old a h] at hp
  obtain rfl := Except.ok.inj hp
  obtain ⟨-, -, -, h4, h5, h6, h7, h8, h9, h10⟩ := getReward_fixed (seen t old a)
  refine ⟨h10, ?_, rfl, h5, h6, h9, rfl, h4, h7⟩
  show (getReward (seen t old a)).2.cumreward + (getReward (seen t old a)).1 =
    t.cumreward + (getReward (seen t old a)).2.reward
  rw [h8, h10]
  rfl

theorem taskDif_eq : taskDif = 12 := by unfold taskDif fraktMax fraktMin side; norm_num

theorem foldl_min_le : ∀ (l : List ℝ) (b : ℝ), l.foldl min b ≤ b ∧ (∀ x ∈ l, l.foldl min b ≤ x) ∧
    (l.foldl min b = b ∨ l.foldl min b ∈ l) := by
  intro l
  induction l with
  | nil => intro b; simp
  | cons y l ih =>
    intro b
    rw [List.foldl_cons]
    obtain ⟨h1, h2, h3⟩ := ih (min b y)
    refine ⟨h1.trans (min_le_left _ _), ?_, ?_⟩
    · intro x hx
      rcases List.mem_cons.1 hx with rfl | hx
      · exact h1.trans (min_le_right _ _)
      · exact h2 x hx
    · rcases h3 with h3 | h3
      · rcases min_choice b y with h | h
        · left; rw [h3, h]
        · right; rw [h3, h]; exact List.mem_cons_self
      · right; exact List.mem_cons_of_mem _ h3

/-- The states of the cube that an agent sees in an episode. -/
noncomputable def observed : List (Fin 12 → ℝ) → Task → List State
  | [], _ => []
  | a :: as, t =>
      match (getObservation t).2.perform a with
      | .error _ => [t.env]
      | .ok t' => t.env :: observed as t'

theorem painOf_range (x : ℝ) : 0 ≤ painOf x ∧ painOf x ≤ 9 := by
  unfold painOf
  have h1 : 1 ≤ min (max (x / 30) 1) 4 := le_min (le_max_right _ _) (by norm_num)
  have h2 : min (max (x / 30) 1) 4 ≤ 4 := min_le_right _ _
  exact ⟨sq_nonneg _, by nlinarith⟩

theorem painOf_zero (x : ℝ) : painOf x = 0 ↔ x ≤ 30 := by
  unfold painOf
  rw [sq_eq_zero_iff, sub_eq_zero]
  constructor
  · intro h
    by_contra hx
    push Not at hx
    have h1 : 1 < x / 30 := by rw [lt_div_iff₀ (by norm_num)]; linarith
    have h2 : 1 < min (max (x / 30) 1) 4 := lt_min (lt_max_of_lt_left h1) (by norm_num)
    exact absurd h (ne_of_gt h2)
  · intro h
    have h1 : x / 30 ≤ 1 := by rw [div_le_iff₀ (by norm_num)]; linarith
    rw [max_eq_right h1]
    norm_num

theorem sum_range : ∀ l : List ℝ, 0 ≤ (l.map painOf).sum ∧ (l.map painOf).sum ≤ 9 * l.length ∧
    ((l.map painOf).sum = 0 ↔ ∀ x ∈ l, x ≤ 30) := by
  intro l
  induction l with
  | nil => simp
  | cons x l ih =>
    obtain ⟨h1, h2⟩ := painOf_range x
    obtain ⟨i1, i2, i3⟩ := ih
    simp only [List.map_cons, List.sum_cons, List.length_cons, List.mem_cons, forall_eq_or_imp]
    push_cast
    refine ⟨by linarith, by linarith, ?_⟩
    rw [← painOf_zero, ← i3]
    constructor
    · intro h; constructor <;> linarith
    · rintro ⟨h, h'⟩; rw [h, h']; norm_num

theorem inDim_new (cls : Class) (hc : Usable cls) (env : State) (he : env.sensors = [.edgesReal])
    (t : Task) (ht : newTask cls env = .ok t) : t.inDim = 12 := by
  rcases hc with rfl | rfl | rfl | rfl <;>
    (obtain rfl := Except.ok.inj ht
     simp [getObservation, newNoReward, he, obsSensorsOf, readSensor, edgeLengths, edgeRows])

end Verif.FlexCube

namespace Verif.Props

open Verif.FlexCube

/-- **C167 (what the tasks are).**  The tasks for growing, walking, rolling and jumping can be
constructed, and they keep their sensors and rewards over resets and steps. -/
theorem C167_ready (cls : Class) (hc : Usable cls) (env : State) :
    (∃ t, newTask cls env = .ok t ∧ Ready cls t ∧ t.epiLen = epiLenOf cls ∧
      (Good env → Good t.env)) ∧
    (∀ t, Ready cls t → Ready cls t.reset) ∧
    ∀ t t' a, Ready cls t → (getObservation t).2.perform a = .ok t' → Ready cls t' := by
  refine ⟨?_, ready_reset cls, fun t t' a h hp => ready_perform cls _ t' a (ready_obs cls t h) hp⟩
  rcases hc with rfl | rfl | rfl | rfl
  · exact ⟨_, rfl, ⟨rfl, rfl, rfl, rfl⟩, rfl, fun h =>
      ⟨h.hight, h.dif, h.dist, h.floor, h.edge, h.symm, h.diagonal, h.range⟩⟩
  · exact ⟨_, rfl, ⟨rfl, rfl, rfl, rfl⟩, rfl, fun h =>
      ⟨h.hight, h.dif, h.dist, h.floor, h.edge, h.symm, h.diagonal, h.range⟩⟩
  · refine ⟨_, rfl, ⟨rfl, rfl, rfl, rfl⟩, rfl, fun _ => ?_⟩
    rw [if_pos rfl]
    exact good_reset _ (by norm_num)
  · exact ⟨_, rfl, ⟨rfl, rfl, rfl, rfl⟩, rfl, fun h =>
      ⟨h.hight, h.dif, h.dist, h.floor, h.edge, h.symm, h.diagonal, h.range⟩⟩

/-- **C167 (sensors).**  The sensors tell the lengths of the edges in units of 30 pixels, the lengths
asked for, how close points are to the floor, and the height of the lowest point. -/
theorem C167_sensors (s : State) (hs : Good s) :
    readSensor s .edgesReal = (edges.map fun e => len (s.pos e.1 - s.pos e.2)).map (· / 30) ∧
    readSensor s .edgesTarget = List.ofFn (fun k => s.action k / 30) ∧
    (∀ x ∈ readSensor s .verticesContact, 0 ≤ x ∧ x ≤ 1) ∧ (readSensor s .verticesContact).length = 8 ∧
    (∃ m, readSensor s .verticesMinHight = [m] ∧ (∃ i, m = s.pos i 1) ∧ ∀ i, m ≤ s.pos i 1) ∧
    (∀ x ∈ readSensor s .time, -1 ≤ x ∧ x ≤ 1) := by
  refine ⟨?_, ?_, ?_, by simp [readSensor], ⟨lowest s, rfl, ?_, ?_⟩, ?_⟩
  · rw [read_edges, lengths]
    simp only [hs.dist]
  · simp [readSensor, List.map_ofFn, Function.comp_def]
  · intro x hx
    simp only [readSensor, List.mem_map] at hx
    obtain ⟨y, -, rfl⟩ := hx
    exact ⟨le_min (le_max_right _ _) zero_le_one, min_le_right _ _⟩
  · rcases (foldl_min_le (heights s) (s.pos 0 1)).2.2 with h | h
    · exact ⟨0, h⟩
    · obtain ⟨i, hi⟩ := List.mem_ofFn.1 h
      exact ⟨i, hi.symm⟩
  · intro i
    exact (foldl_min_le (heights s) (s.pos 0 1)).2.1 _ (List.mem_ofFn.2 ⟨i, rfl⟩)
  · intro x hx
    simp only [readSensor, List.mem_cons, List.not_mem_nil, or_false] at hx
    rcases hx with rfl | rfl | rfl <;> exact ⟨Real.neg_one_le_sin _, Real.sin_le_one _⟩

/-- The contact sensor is 0 for points that are at least one pixel above the floor and 1 for points on
it. -/
theorem C167_contact (s : State) (hs : Good s) (i : Fin 8) :
    ∃ x, (readSensor s .verticesContact)[i.val]? = some x ∧ (x = 0 ↔ 1 ≤ s.pos i 1) ∧
      (x = 1 ↔ s.pos i 1 = 0) := by
  refine ⟨min (max (1 - s.pos i 1) 0) 1, by fin_cases i <;> simp [readSensor], ?_, ?_⟩
  · have := hs.floor i
    constructor
    · intro h
      by_contra hx
      push Not at hx
      have : 0 < min (max (1 - s.pos i 1) 0) 1 := lt_min (lt_max_of_lt_left (by linarith)) one_pos
      linarith
    · intro h
      rw [max_eq_right (by linarith)]
      norm_num
  · have := hs.floor i
    constructor
    · intro h
      by_contra hx
      have hpos : 0 < s.pos i 1 := lt_of_le_of_ne this (Ne.symm hx)
      have : min (max (1 - s.pos i 1) 0) 1 < 1 :=
        min_lt_of_left_lt (max_lt (by linarith) one_pos)
      linarith
    · intro h
      rw [h]
      norm_num

/-- **C167 (observations).**  The agent observes, in this order, the lengths asked for, the lengths of
the edges, the contacts, and, when walking, the time; when growing only the lengths and the lengths
asked for. -/
theorem C167_observation (cls : Class) (hc : Usable cls) (t : Task) (h : Ready cls t) :
    (getObservation t).1 = (obsSensorsOf cls).flatMap (readSensor t.env) ∧
    (getObservation t).1.length = match cls with
      | .grow => 24
      | .jump => 32
      | _ => 35 := by
  have h1 : (getObservation t).1 = (obsSensorsOf cls).flatMap (readSensor t.env) := by
    unfold getObservation
    simp only [h.sensors, h.obs]
    rcases hc with rfl | rfl | rfl | rfl <;> simp [obsSensorsOf, rewardSensorOf, List.filter]
  refine ⟨h1, ?_⟩
  rw [h1]
  rcases hc with rfl | rfl | rfl | rfl <;>
    simp [obsSensorsOf, readSensor, edgeLengths, edgeRows]

/-- **C167 (actions).**  An agent that acts between −1 and 1 moves the wanted lengths between 14 and
26, by not more than the largest speed per step; a wanted length that is within reach is used as it
is, and the cube gets exactly these lengths. -/
theorem C167_actions (t t' : Task) (old a : Fin 12 → ℝ) (hold : t.action = some old)
    (hspeed : 0 ≤ t.maxSpeed) (hr : ∀ k, 14 ≤ old k ∧ old k ≤ 26) (ha : ∀ k, -1 ≤ a k ∧ a k ≤ 1)
    (hp : (getObservation t).2.perform a = .ok t') :
    ∃ new, t'.action = some new ∧ t'.env.action = new ∧ (∀ k, 14 ≤ new k ∧ new k ≤ 26) ∧
      (∀ k, |new k - old k| ≤ t.maxSpeed) ∧
      ∀ k, |14 + 6 * (a k + 1) - old k| ≤ t.maxSpeed → new k = 14 + 6 * (a k + 1) := by
  obtain ⟨-, -, -, -, -, -, h7, h8, -⟩ := step_eq t t' old a hold hp
  have hx : ∀ k, (a k + 1) / 2 * taskDif + fraktMin * side = 14 + 6 * (a k + 1) := by
    intro k
    rw [taskDif_eq, fraktMin, side]
    ring
  have hrange : ∀ k, 14 ≤ sent t old a k ∧ sent t old a k ≤ 26 := by
    intro k
    have h1 := hr k
    have h2 := ha k
    rw [sent, hx]
    refine ⟨le_min (le_max_of_le_left (by linarith)) (by linarith), ?_⟩
    exact (min_le_left _ _).trans (max_le (by linarith) (by linarith))
  refine ⟨sent t old a, h7, ?_, hrange, ?_, ?_⟩
  · rw [h8]
    show normAct (sent t old a) = sent t old a
    funext k
    rw [normAct, minAkt_eq, maxAkt_eq, max_eq_left (hrange k).1, min_eq_left (hrange k).2]
  · intro k
    rw [sent, abs_le]
    constructor
    · have : old k - t.maxSpeed ≤ min (max ((a k + 1) / 2 * taskDif + fraktMin * side)
        (old k - t.maxSpeed)) (old k + t.maxSpeed) := le_min (le_max_right _ _) (by linarith)
      linarith
    · have : min (max ((a k + 1) / 2 * taskDif + fraktMin * side)
        (old k - t.maxSpeed)) (old k + t.maxSpeed) ≤ old k + t.maxSpeed := min_le_right _ _
      linarith
  · intro k hk
    rw [abs_le] at hk
    rw [sent, hx, max_eq_left (by linarith), min_eq_left (by linarith)]

example : (0 : ℝ) ≤ maxSpeedOf .walk ∧ ∀ t : Task, t.reset.action = some fun _ => 20 := by
  refine ⟨by simp only [maxSpeedOf, taskDif_eq]; norm_num, fun t => ?_⟩
  simp only [Task.reset, side]

/-- **C167 (pain).**  The pain is between 0 and 108, and it is 0 exactly if no edge is longer than 30
pixels. -/
theorem C167_pain (s : State) : 0 ≤ pain s ∧ pain s ≤ 108 ∧
    (pain s = 0 ↔ ∀ e ∈ edges, s.dist e.1 e.2 ≤ 30) := by
  obtain ⟨h1, h2, h3⟩ := sum_range (lengths s)
  refine ⟨h1, ?_, ?_⟩
  · have : (lengths s).length = 12 := by simp [lengths, edges_eq]
    rw [this] at h2
    unfold pain
    norm_num at h2
    exact h2
  · unfold pain
    rw [h3, lengths, List.forall_mem_map]

/-- **C167 (growing).**  The reward of a step is how much longer the edges were together than at the
start, minus the pain; it is added to the sum of the episode. -/
theorem C167_grow (t t' : Task) (old a : Fin 12 → ℝ) (hr : Ready .grow t) (h : t.action = some old)
    (hp : (getObservation t).2.perform a = .ok t') :
    t'.reward = ((lengths t.env).sum - 12 * 20) - pain t.env ∧
      t'.cumreward = t.cumreward + t'.reward := by
  obtain ⟨h1, h2, -⟩ := step_eq t t' old a h hp
  refine ⟨?_, h2⟩
  rw [h1]
  have hcls : (seen t old a).cls = .grow := hr.ofClass
  have hpain : (getPain (seen t old a)).1 = pain t.env :=
    getPain_eq _ _ (obs_edgeL .grow t (Or.inl rfl) hr)
  have hraw : (seen t old a).rawReward = (lengths t.env).sum - 240 := raw_grow t hr
  unfold getReward
  rw [if_neg (by rw [hcls]; simp)]
  simp only [hcls, hpain, hraw]
  norm_num

/-- **C167 (walking).**  The reward of a step is minus the pain; in the last step the distance of the
centre of gravity from the origin along the floor is added. -/
theorem C167_walk (cls : Class) (hc : cls = .walk ∨ cls = .rollingUp) (t t' : Task)
    (old a : Fin 12 → ℝ) (hr : Ready cls t) (h : t.action = some old)
    (hp : (getObservation t).2.perform a = .ok t') :
    t'.reward = (if t.epiStep + 1 < t.epiLen then 0 else
        Real.sqrt (t.env.center 0 ^ 2 + t.env.center 2 ^ 2)) - pain t.env ∧
      t'.cumreward = t.cumreward + t'.reward := by
  obtain ⟨h1, h2, -⟩ := step_eq t t' old a h hp
  refine ⟨?_, h2⟩
  rw [h1]
  have hcls : (seen t old a).cls = cls := hr.ofClass
  have hu : Usable cls := by
    rcases hc with rfl | rfl
    · exact Or.inr (Or.inl rfl)
    · exact Or.inr (Or.inr (Or.inl rfl))
  have hpain : (getPain (seen t old a)).1 = pain t.env := getPain_eq _ _ (obs_edgeL cls t hu hr)
  have hraw : (seen t old a).rawReward = len (onFloor t.env.center) * 0.00125 := raw_walk cls hc t hr
  have hlen : len (onFloor t.env.center) = Real.sqrt (t.env.center 0 ^ 2 + t.env.center 2 ^ 2) := by
    unfold len onFloor
    congr 1
    rw [Fin.sum_univ_three]
    simp
  have he : (seen t old a).epiStep = t.epiStep + 1 := rfl
  have hl : (seen t old a).epiLen = t.epiLen := rfl
  unfold getReward
  rw [if_neg (by rw [hcls]; rcases hc with rfl | rfl <;> simp)]
  rw [← hlen]
  by_cases hlt : t.epiStep + 1 < t.epiLen
  · rcases hc with rfl | rfl <;> simp only [hcls, he, hl, if_pos hlt, hpain] <;> ring
  · rcases hc with rfl | rfl <;> simp only [hcls, he, hl, if_neg hlt, hpain, hraw] <;> ring

/-- **C167 (jumping).**  The reward of a step is minus the pain; in the last step the largest height of
the lowest point that was observed in the earlier steps is added. -/
theorem C167_jump (t t' : Task) (old a : Fin 12 → ℝ) (hr : Ready .jump t) (h : t.action = some old)
    (hp : (getObservation t).2.perform a = .ok t') :
    t'.reward = (if t.epiStep + 1 < t.epiLen then 0 else t.maxReward) - pain t.env ∧
      t'.maxReward = (if t.epiStep + 1 < t.epiLen then max t.maxReward (lowest t.env)
        else t.maxReward) ∧
      t'.cumreward = t.cumreward + t'.reward := by
  obtain ⟨h1, h2, h3, -⟩ := step_eq t t' old a h hp
  rw [h3, h2, h1]
  have hcls : (seen t old a).cls = .jump := hr.ofClass
  have hpain : (getPain (seen t old a)).1 = pain t.env :=
    getPain_eq _ _ (obs_edgeL .jump t (Or.inr (Or.inr (Or.inr rfl))) hr)
  have hraw : (seen t old a).rawReward = lowest t.env := raw_jump t hr
  have he : (seen t old a).epiStep = t.epiStep + 1 := rfl
  have hl : (seen t old a).epiLen = t.epiLen := rfl
  have hm : (seen t old a).maxReward = t.maxReward := rfl
  refine ⟨?_, ?_, rfl⟩
  · unfold getReward
    by_cases hlt : t.epiStep + 1 < t.epiLen
    · by_cases hgt : lowest t.env > t.maxReward
      · rw [if_pos ⟨hcls, by rw [he, hl]; exact hlt, by rw [hraw, hm]; exact hgt⟩]
        generalize hu : ({ seen t old a with maxReward := (seen t old a).rawReward } : FlexCube.Task) = u
        have hpain' : (getPain u).1 = pain t.env := by rw [← hu]; exact hpain
        have hcls' : u.cls = .jump := by rw [← hu]; exact hcls
        have he' : u.epiStep = t.epiStep + 1 := by rw [← hu]; rfl
        have hl' : u.epiLen = t.epiLen := by rw [← hu]; rfl
        simp only [hcls', he', hl', if_pos hlt, hpain']
        ring
      · rw [if_neg (by rw [hraw, hm]; tauto)]
        simp only [hcls, he, hl, if_pos hlt, hpain]
        ring
    · rw [if_neg (by rw [he, hl]; tauto)]
      simp only [hcls, he, hl, if_neg hlt, hpain, hm]
  · unfold getReward
    by_cases hlt : t.epiStep + 1 < t.epiLen
    · by_cases hgt : lowest t.env > t.maxReward
      · rw [if_pos ⟨hcls, by rw [he, hl]; exact hlt, by rw [hraw, hm]; exact hgt⟩, if_pos hlt,
          max_eq_right hgt.le]
        exact hraw
      · rw [if_neg (by rw [hraw, hm]; tauto), if_pos hlt, max_eq_left (not_lt.1 hgt)]
        rfl
    · rw [if_neg (by rw [he, hl]; tauto), if_neg hlt]
      rfl

/-- **C167 (jumping, whole episodes).**  Before the last step, the height that will be rewarded is the
largest that was seen since the reset. -/
theorem C167_jump_episode (as : List (Fin 12 → ℝ)) : ∀ (t t' : Task) (old : Fin 12 → ℝ),
    Ready .jump t → t.action = some old → steps as t = .ok t' → t.epiStep + as.length < t.epiLen →
    t'.maxReward = ((observed as t).map lowest).foldl max t.maxReward ∧
      (observed as t).length = as.length := by
  induction as with
  | nil =>
    intro t t' old _ _ hs _
    obtain rfl := Except.ok.inj hs
    simp [observed]
  | cons a as ih =>
    intro t t' old hr h hs hlen
    have hp := perform_eq (getObservation t).2 old a h
    rw [steps] at hs
    simp only [List.length_cons] at hlen
    generalize hq : (getObservation t).2.perform a = q at hs hp
    cases q with
    | error e => exact absurd hp (by simp)
    | ok t1 =>
      simp only [bind, Except.bind] at hs
      obtain ⟨-, -, -, h4, h5, -, h7, -⟩ := step_eq t t1 old a h hq
      have hm := (C167_jump t t1 old a hr h hq).2.1
      rw [if_pos (by omega)] at hm
      have hr1 := ready_perform .jump _ t1 a (ready_obs .jump t hr) hq
      obtain ⟨i1, i2⟩ := ih t1 t' _ hr1 h7 hs (by omega)
      rw [observed]
      simp only [hq]
      refine ⟨?_, by simp [i2]⟩
      rw [i1, hm]
      rfl

/-- **C167 (episodes).**  After a reset, steps never fail; the number of steps is counted, and the
episode is finished exactly from its given length on. -/
theorem C167_episode (as : List (Fin 12 → ℝ)) : ∀ (t : Task) (old : Fin 12 → ℝ),
    t.action = some old → ∃ t', steps as t = .ok t' ∧ t'.epiStep = t.epiStep + as.length ∧
      t'.samples = t.samples + as.length ∧ t'.epiLen = t.epiLen ∧
      (t'.isFinished = true ↔ t.epiLen ≤ t.epiStep + as.length) := by
  induction as with
  | nil =>
    intro t old _
    exact ⟨t, rfl, rfl, rfl, rfl, by simp [Task.isFinished]⟩
  | cons a as ih =>
    intro t old h
    have hp := perform_eq (getObservation t).2 old a h
    rw [steps]
    generalize hq : (getObservation t).2.perform a = q at hp
    cases q with
    | error e => exact absurd hp (by simp)
    | ok t1 =>
      obtain ⟨-, -, -, h4, h5, h6, h7, -⟩ := step_eq t t1 old a h hq
      obtain ⟨t', e1, e2, e3, e4, e5⟩ := ih t1 _ h7
      refine ⟨t', e1, ?_, ?_, by rw [e4, h5], ?_⟩
      · rw [e2, h4, List.length_cons]; omega
      · rw [e3, h6, List.length_cons]; omega
      · rw [e5, h4, h5, List.length_cons]
        constructor <;> intro _ <;> omega

/-- After a reset a task has an action, no reward and no steps. -/
theorem C167_reset (t : Task) : t.reset.action = some (fun _ => 20) ∧ t.reset.epiStep = 0 ∧
    t.reset.cumreward = 0 ∧ t.reset.samples = 0 ∧ t.reset.reward = 0 ∧
    (t.cls = .jump → t.reset.maxReward = 0) := by
  refine ⟨by simp only [Task.reset, side], rfl, rfl, rfl, rfl, fun h => ?_⟩
  simp only [Task.reset, if_pos h]

/-- **C167 (tasks tell the size of their observations), false.**  `inDim` is computed before the task
sets the sensors of the environment: in a new environment it is 12 for all tasks, not 24, 35 or 32. -/
theorem C167_negation_dimension (cls : Class) (hc : Usable cls) :
    ∃ t, newTask cls newEnv = .ok t ∧ t.inDim = 12 ∧ (getObservation t).1.length ≠ t.inDim := by
  obtain ⟨⟨t, ht, hr, -⟩, -⟩ := C167_ready cls hc newEnv
  have hd : t.inDim = 12 := inDim_new cls hc newEnv rfl t ht
  refine ⟨t, ht, hd, ?_⟩
  rw [(C167_observation cls hc t hr).2, hd]
  rcases hc with rfl | rfl | rfl | rfl <;> simp

/-- **C167 (all tasks can be used), false.**  The tasks with a target cannot be constructed, since the
environment has no `hasRenderInterface`; the others fail in the first step if they are not reset
before, since `action` is missing. -/
theorem C167_negation_unusable (env : State) (a : Fin 12 → ℝ) :
    newTask .walkDirection env = .error .attributeError ∧
    newTask .targetTask env = .error .attributeError ∧
    ∀ cls, Usable cls → ∃ t, newTask cls env = .ok t ∧ t.perform a = .error .attributeError := by
  refine ⟨rfl, rfl, ?_⟩
  rintro cls (rfl | rfl | rfl | rfl) <;> exact ⟨_, rfl, rfl⟩

/-- **C167 (actions are rewarded by their effect), false.**  The reward of a step is computed from the
observation before it: two actions in the same state get the same reward, and what the last action of
an episode does is not rewarded at all. -/
theorem C167_negation_delay (cls : Class) (hc : Usable cls) (t ta tb : Task) (old a b : Fin 12 → ℝ)
    (hr : Ready cls t) (h : t.action = some old)
    (hpa : (getObservation t).2.perform a = .ok ta)
    (hpb : (getObservation t).2.perform b = .ok tb) : ta.reward = tb.reward := by
  rcases hc with rfl | rfl | rfl | rfl
  · rw [(C167_grow t ta old a hr h hpa).1, (C167_grow t tb old b hr h hpb).1]
  · rw [(C167_walk _ (Or.inl rfl) t ta old a hr h hpa).1,
      (C167_walk _ (Or.inl rfl) t tb old b hr h hpb).1]
  · rw [(C167_walk _ (Or.inr rfl) t ta old a hr h hpa).1,
      (C167_walk _ (Or.inr rfl) t tb old b hr h hpb).1]
  · rw [(C167_jump t ta old a hr h hpa).1, (C167_jump t tb old b hr h hpb).1]

/-- The theorems apply to every task after its construction and its reset. -/
example : ∃ t, newTask .walk newEnv = .ok t ∧ Ready .walk t.reset ∧
    t.reset.action = some (fun _ => 20) ∧ t.reset.epiLen = 2000 :=
  ⟨_, rfl, ⟨rfl, rfl, rfl, rfl⟩, (C167_reset _).1, rfl⟩

end Verif.Props

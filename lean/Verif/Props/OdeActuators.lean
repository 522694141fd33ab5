import Verif.Props.Ode

/-!
# C170: actions in the ODE environment
-/

namespace Verif.Ode

section
variable {W K : Type} [CommRing K]

/-! ### Specification -/

/-- The joints that an actuator can move. -/
def movable : Obj → Option Joint
  | .joint j =>
    match j.kind with
    | .amotor _ => some j
    | .hinge => some j
    | .hinge2 => some j
    | _ => none
  | _ => none

/-- The number of axes of a joint that take a torque. -/
def axes : JKind → Nat
  | .amotor n => n
  | .hinge => 1
  | .hinge2 => 2
  | _ => 0

/-- The number of arguments of `addTorque` or `addTorques` of a joint. -/
def arity : JKind → Nat
  | .amotor _ => 3
  | .hinge => 1
  | .hinge2 => 2
  | _ => 0

/-- The objects do not contain motors with more than three axes (which the engine does not allow). -/
def Sound (os : List Obj) : Prop := ∀ o ∈ os, ∀ j n, o = .joint j → j.kind = .amotor n → n ≤ 3

/-- A call gives each axis a torque and fills up the remaining arguments with zeros. -/
def WellFormed (c : Call K) : Prop :=
  c.2.length = arity c.1.kind ∧ c.2.drop (axes c.1.kind) = List.replicate (arity c.1.kind - axes c.1.kind) 0

/-- The torques for the axes of a joint in a call. -/
def axisTorques (c : Call K) : List K := c.2.take (axes c.1.kind)

/-- Sliders. -/
def isSlider : Obj → Bool
  | .joint j => j.kind == .slider
  | _ => false

/-! ### Lemmas -/

theorem applyJoints_spec : ∀ (os : List Obj) (act : List K), Sound os → act.length = countValues os →
    (applyJoints os act).2 = none ∧ (applyJoints os act).1.map Prod.fst = os.filterMap movable ∧
      (applyJoints os act).1.flatMap axisTorques = act ∧ ∀ c ∈ (applyJoints os act).1, WellFormed c
  | [], act, _, h => by
    simp [countValues] at h
    simp [applyJoints, h]
  | o :: os, act, hs, h => by
    have hs' : Sound os := fun x hx => hs x (List.mem_cons_of_mem _ hx)
    rw [countValues, List.map_cons, List.sum_cons, ← countValues] at h
    rcases o with ⟨⟨i, k⟩⟩ | i | _
    · cases k with
      | amotor n =>
        have hn : n ≤ 3 := hs _ List.mem_cons_self _ n rfl rfl
        simp only [countOf] at h
        obtain ⟨i1, i2, i3, i4⟩ := applyJoints_spec os (act.drop n) hs' (by simp; omega)
        rw [applyJoints]
        simp only [if_neg (not_lt.2 hn)]
        refine ⟨i1, by simp [movable, i2], ?_, ?_⟩
        · rw [List.flatMap_cons, i3]
          simp [axisTorques, axes, motorTorques, Nat.min_eq_left (show n ≤ act.length by omega)]
        · intro c hc
          rcases List.mem_cons.1 hc with rfl | hc
          · refine ⟨?_, ?_⟩
            · simp [motorTorques, arity]; omega
            · simp only [motorTorques, arity, axes]
              rw [List.drop_append_of_le_length (by simp; omega), List.drop_eq_nil_of_le (by simp)]
              simp
          · exact i4 c hc
      | hinge =>
        simp only [countOf] at h
        obtain ⟨i1, i2, i3, i4⟩ := applyJoints_spec os (act.drop 1) hs' (by simp; omega)
        rw [applyJoints]
        refine ⟨i1, by rw [List.map_cons, i2]; rfl, ?_, ?_⟩
        · simp only [List.flatMap_cons, i3]
          simp only [axisTorques, axes, List.take_take, Nat.min_self]
          exact List.take_append_drop _ _
        · intro c hc
          rcases List.mem_cons.1 hc with rfl | hc
          · refine ⟨by simp [arity]; omega, by simp [arity, axes]⟩
          · exact i4 c hc
      | hinge2 =>
        simp only [countOf] at h
        obtain ⟨i1, i2, i3, i4⟩ := applyJoints_spec os (act.drop 2) hs' (by simp; omega)
        rw [applyJoints]
        refine ⟨i1, by rw [List.map_cons, i2]; rfl, ?_, ?_⟩
        · simp only [List.flatMap_cons, i3]
          simp only [axisTorques, axes, List.take_take, Nat.min_self]
          exact List.take_append_drop _ _
        · intro c hc
          rcases List.mem_cons.1 hc with rfl | hc
          · refine ⟨by simp [arity]; omega, by simp [arity, axes]⟩
          · exact i4 c hc
      | ball => simpa [applyJoints, movable, List.filterMap_cons] using applyJoints_spec os act hs' (by simpa [countOf] using h)
      | universal => simpa [applyJoints, movable, List.filterMap_cons] using applyJoints_spec os act hs' (by simpa [countOf] using h)
      | slider => simpa [applyJoints, movable, List.filterMap_cons] using applyJoints_spec os act hs' (by simpa [countOf] using h)
      | other => simpa [applyJoints, movable, List.filterMap_cons] using applyJoints_spec os act hs' (by simpa [countOf] using h)
    · simpa [applyJoints, movable, List.filterMap_cons] using applyJoints_spec os act hs' (by simpa [countOf] using h)
    · simpa [applyJoints, movable, List.filterMap_cons] using applyJoints_spec os act hs' (by simpa [countOf] using h)

/-- The joints whose axes have values of their own in the action. -/
def Plain (a : Actuator) : Prop := (∀ ns, a.kind ≠ .copy ns) ∧ a.num = countValues a.objs ∧ Sound a.objs

theorem update_plain (a : Actuator) (ha : Plain a) (act : List K) (h : act.length = a.num) :
    (a.update act).2 = none ∧ (a.update act).1.map Prod.fst = a.objs.filterMap movable ∧
      (a.update act).1.flatMap axisTorques = act ∧ ∀ c ∈ (a.update act).1, WellFormed c := by
  have e : a.update act = applyJoints a.objs act := by
    unfold Actuator.update
    rw [if_neg (by simpa using h)]
    have := ha.1
    rcases a with ⟨nm, k, nu, os⟩
    cases k with
    | joints => rfl
    | someJoints _ => rfl
    | copy ns => exact absurd rfl (this ns)
  rw [e]
  exact applyJoints_spec a.objs act ha.2.2 (by rw [h, ha.2.1])

theorem applyAll_plain : ∀ (as : List Actuator) (act : List K), (∀ a ∈ as, Plain a) →
    (as.map (·.num)).sum ≤ act.length →
    (applyAll as act).2 = none ∧ (applyAll as act).1.map Prod.fst = as.flatMap (fun a => a.objs.filterMap movable) ∧
      (applyAll as act).1.flatMap axisTorques = act.take (as.map (·.num)).sum ∧ ∀ c ∈ (applyAll as act).1, WellFormed c
  | [], act, _, _ => by simp [applyAll]
  | a :: as, act, ha, h => by
    rw [List.map_cons, List.sum_cons] at h
    obtain ⟨u1, u2, u3, u4⟩ := update_plain a (ha a List.mem_cons_self) (act.take a.num) (by simp; omega)
    obtain ⟨i1, i2, i3, i4⟩ := applyAll_plain as (act.drop a.num) (fun x hx => ha x (List.mem_cons_of_mem _ hx)) (by simp; omega)
    rw [applyAll]
    simp only [u1]
    refine ⟨i1, by simp [u2, i2], ?_, ?_⟩
    · rw [List.flatMap_append, u3, i3, List.map_cons, List.sum_cons, List.take_add]
    · intro c hc
      rcases List.mem_append.1 hc with hc | hc
      · exact u4 c hc
      · exact i4 c hc

theorem applyAll_short : ∀ (as : List Actuator) (act : List K), (∀ a ∈ as, Plain a) →
    act.length < (as.map (·.num)).sum → (applyAll as act).2 = some .assertion
  | [], act, _, h => by simp at h
  | a :: as, act, ha, h => by
    rw [List.map_cons, List.sum_cons] at h
    rw [applyAll]
    by_cases hl : a.num ≤ act.length
    · obtain ⟨u1, -, -, -⟩ := update_plain a (ha a List.mem_cons_self) (act.take a.num) (by simp; omega)
      have ih := applyAll_short as (act.drop a.num) (fun x hx => ha x (List.mem_cons_of_mem _ hx)) (by simp; omega)
      simp only [u1]
      exact ih
    · have e : a.update (act.take a.num) = (([] : List (Call K)), some .assertion) := by
        unfold Actuator.update
        rw [if_pos (by simp; omega)]
      simp [e]

theorem filter_sound {os : List Obj} (h : Sound os) (p : Obj → Bool) : Sound (os.filter p) :=
  fun o ho => h o (List.mem_filter.1 ho).1

theorem connect_plain (r : Root) (hs : Sound r.tree.all) (hn : ∀ s o, r.named s = some o → Sound [o]) (a : Actuator)
    (hc : ∀ ns, a.kind ≠ .copy ns) (h : (a.connect r).2 = none) :
    Plain (a.connect r).1 ∧ (a.connect r).1.kind = a.kind ∧ (a.connect r).1.name = a.name := by
  rcases a with ⟨nm, k, nu, os⟩
  cases k with
  | joints =>
    refine ⟨⟨hc, rfl, ?_⟩, rfl, rfl⟩
    simp only [Actuator.connect, joints_eq]
    exact filter_sound hs _
  | someJoints ns =>
    simp only [Actuator.connect] at h ⊢
    cases hl : (lookup r ns).2 with
    | some e => rw [hl] at h; simp at h
    | none =>
      refine ⟨⟨hc, rfl, ?_⟩, rfl, rfl⟩
      simp only [(lookup_ok r ns hl).1]
      intro o ho j n hj hk
      obtain ⟨s, -, hso⟩ := List.mem_filterMap.1 ho
      exact hn s o hso o List.mem_cons_self j n hj hk
  | copy ns => exact absurd rfl (hc ns)

theorem connect_objs (r : Root) (a a' : Actuator) (hk : a.kind = a'.kind) (h : (a.connect r).2 = none) :
    (a.connect r).1.objs = (a'.connect r).1.objs ∧ (a.connect r).1.num = (a'.connect r).1.num ∧ (a'.connect r).2 = none := by
  rcases a with ⟨nm, k, nu, os⟩
  rcases a' with ⟨nm', k', nu', os'⟩
  simp only at hk
  subst hk
  cases k with
  | joints => exact ⟨rfl, rfl, rfl⟩
  | someJoints ns =>
    simp only [Actuator.connect] at h ⊢
    cases hl : (lookup r ns).2 with
    | some e => rw [hl] at h; simp at h
    | none => exact ⟨rfl, rfl, rfl⟩
  | copy ns =>
    simp only [Actuator.connect] at h ⊢
    cases hl : (lookup r ns).2 with
    | some e => rw [hl] at h; simp at h
    | none => exact ⟨rfl, rfl, rfl⟩

/-- The objects of an actuator of a class in a file. -/
def objectsOf (r : Root) : AKind → List Obj
  | .joints => r.tree.all.filter isJoint
  | .someJoints ns => ns.filterMap r.named
  | .copy ns => ns.filterMap r.named

/-- An actuator is connected to a file. -/
structure AConn (r : Root) (a : Actuator) : Prop where
  objs : a.objs = objectsOf r a.kind
  num : a.num = match a.kind with
    | .copy _ => 1
    | _ => countValues (objectsOf r a.kind)

theorem connect_aconn (r : Root) (a : Actuator) (h : (a.connect r).2 = none) :
    AConn r (a.connect r).1 ∧ (a.connect r).1.kind = a.kind ∧ (a.connect r).1.name = a.name := by
  rcases a with ⟨nm, k, nu, os⟩
  cases k with
  | joints => exact ⟨⟨by simp [Actuator.connect, objectsOf, joints_eq], by simp [Actuator.connect, objectsOf, joints_eq]⟩, rfl, rfl⟩
  | someJoints ns =>
    simp only [Actuator.connect] at h ⊢
    cases hl : (lookup r ns).2 with
    | some e => rw [hl] at h; simp at h
    | none => exact ⟨⟨by simp [objectsOf, (lookup_ok r ns hl).1], by simp [objectsOf, (lookup_ok r ns hl).1]⟩, rfl, rfl⟩
  | copy ns =>
    simp only [Actuator.connect] at h ⊢
    cases hl : (lookup r ns).2 with
    | some e => rw [hl] at h; simp at h
    | none => exact ⟨⟨by simp [objectsOf, (lookup_ok r ns hl).1], rfl⟩, rfl, rfl⟩

/-- The classes of the actuators that a sequence of calls adds. -/
def addedActuators (ops : List (Op W K)) : List AKind :=
  ops.filterMap fun o => match o with
    | .addActuator _ k => some k
    | _ => none

/-- No further file is loaded. -/
def noLoad (ops : List (Op W K)) : Prop := ∀ f, Op.load f ∉ ops

/-- The actuators after a sequence of calls. -/
structure AInv (f : File W) (ks : List AKind) (e : Env W K) : Prop where
  file : e.file = f
  root : e.root = f.root
  conn : ∀ a ∈ e.actuators, AConn f.root a
  kinds : e.actuators.map (·.kind) = ks

theorem step_ainv {ph : Phys W K} {f : File W} {ks : List AKind} {e : Env W K} (hi : AInv f ks e) : AInv f ks (e.step ph).1 := by
  unfold Env.step
  simp only
  split
  · exact ⟨hi.file, hi.root, hi.conn, hi.kinds⟩
  · exact ⟨hi.file, hi.root, hi.conn, hi.kinds⟩

theorem steps_ainv {ph : Phys W K} {f : File W} {ks : List AKind} : ∀ (m : Nat) {e : Env W K}, AInv f ks e → AInv f ks (e.steps ph m).1
  | 0, _, hi => hi
  | m + 1, e, hi => by
    rw [Env.steps]
    split
    · exact step_ainv hi
    · exact steps_ainv m (step_ainv hi)

theorem connectActuators_ok (r : Root) : ∀ (as : List Actuator), (connectActuators r as).2 = none →
    (∀ a ∈ (connectActuators r as).1, AConn r a) ∧ (connectActuators r as).1.map (·.kind) = as.map (·.kind)
  | [], _ => by simp [connectActuators]
  | a :: as, h => by
    rw [connectActuators] at h ⊢
    cases hc : (a.connect r).2 with
    | some e => rw [hc] at h; simp at h
    | none =>
      rw [hc] at h
      simp only at h ⊢
      obtain ⟨i1, i2⟩ := connectActuators_ok r as h
      obtain ⟨c1, c2, -⟩ := connect_aconn r a hc
      refine ⟨?_, by simp [c2, i2]⟩
      intro x hx
      rcases List.mem_cons.1 hx with rfl | hx
      · exact c1
      · exact i1 x hx

theorem op_ainv {ph : Phys W K} {f : File W} {ks : List AKind} {e : Env W K} (hi : AInv f ks e) (o : Op W K)
    (hl : ∀ g, o ≠ .load g) (h : (e.op ph o).2 = none) : AInv f (ks ++ addedActuators [o]) (e.op ph o).1 := by
  cases o with
  | load g => exact absurd rfl (hl g)
  | addSensor nm k => exact ⟨hi.file, hi.root, hi.conn, by simp [Env.op, Env.addSensor, addedActuators, hi.kinds]⟩
  | addActuator nm k =>
    simp only [Env.op, Env.addActuator] at h ⊢
    obtain ⟨c1, c2, -⟩ := connect_aconn e.root _ h
    refine ⟨hi.file, hi.root, ?_, by simp [addedActuators, hi.kinds, c2]; rfl⟩
    intro a ha
    rcases List.mem_append.1 ha with ha | ha
    · exact hi.conn a ha
    · rw [List.mem_singleton] at ha
      subst ha
      rw [← hi.root]
      exact c1
  | exclude ns => exact ⟨hi.file, hi.root, hi.conn, by simp [Env.op, Env.excludeSensors, addedActuators, hi.kinds]⟩
  | action a =>
    simp only [Env.op, Env.performAction] at h ⊢
    have hi' : AInv f ks { e with forces := e.forces ++ (applyAll e.actuators a).1 } := ⟨hi.file, hi.root, hi.conn, hi.kinds⟩
    have e0 : ks ++ addedActuators [(Op.action a : Op W K)] = ks := by simp [addedActuators]
    rw [e0]
    split
    · exact hi'
    · exact steps_ainv _ hi'
  | step =>
    have e0 : ks ++ addedActuators [(Op.step : Op W K)] = ks := by simp [addedActuators]
    rw [e0]
    exact step_ainv hi
  | reset =>
    have e0 : ks ++ addedActuators [(Op.reset : Op W K)] = ks := by simp [addedActuators]
    rw [e0]
    simp only [Env.op, Env.reset] at h ⊢
    cases hc : (connectAll ph e.file.root e.file.world e.sensors).2 with
    | some f => rw [hc] at h; simp at h
    | none =>
      rw [hc] at h
      simp only at h ⊢
      cases ha : (connectActuators e.file.root e.actuators).2 with
      | some f => rw [ha] at h; simp at h
      | none =>
        simp only
        obtain ⟨i1, i2⟩ := connectActuators_ok e.file.root e.actuators ha
        exact ⟨hi.file, by rw [hi.file], by rw [← hi.file]; exact i1, by rw [i2, hi.kinds]⟩

theorem run_ainv {ph : Phys W K} {f : File W} : ∀ (ops : List (Op W K)) {ks : List AKind} {e e' : Env W K},
    AInv f ks e → noLoad ops → e.run ph ops = (e', none) → AInv f (ks ++ addedActuators ops) e'
  | [], ks, e, e', hi, _, h => by
    simp only [Env.run, Prod.mk.injEq, and_true] at h
    subst h
    simpa [addedActuators] using hi
  | o :: os, ks, e, e', hi, hn, h => by
    rw [Env.run] at h
    cases ho : (e.op ph o).2 with
    | some f => rw [ho] at h; simp at h
    | none =>
      rw [ho] at h
      have h1 := op_ainv hi o (fun g hg => hn g (by simp [hg])) ho
      have h2 := run_ainv os h1 (fun g hg => hn g (List.mem_cons_of_mem _ hg)) h
      have : ks ++ addedActuators [o] ++ addedActuators os = ks ++ addedActuators (o :: os) := by
        rw [List.append_assoc]
        congr 1
        unfold addedActuators
        rw [← List.filterMap_append]
        rfl
      rw [this] at h2
      exact h2

/-- Torques of an actuator that copies one value: ten times the value for the axes of motors. -/
def copyTorques (j : Joint) (x : K) : List K :=
  match j.kind with
  | .amotor n => List.replicate n (x * 10) ++ List.replicate (3 - n) 0
  | .hinge => [x]
  | _ => [x, x]

theorem applyCopy_spec : ∀ (os : List Obj) (x : K), Sound os →
    applyCopy os x = ((os.filterMap movable).map (fun j => (j, copyTorques j x)), none)
  | [], x, _ => rfl
  | o :: os, x, hs => by
    have ih := applyCopy_spec os x fun y hy => hs y (List.mem_cons_of_mem _ hy)
    rcases o with ⟨⟨i, k⟩⟩ | i | _
    · cases k with
      | amotor n =>
        have hn : n ≤ 3 := hs _ List.mem_cons_self _ n rfl rfl
        rw [applyCopy]
        simp only [if_neg (not_lt.2 hn), ih]
        simp [movable, copyTorques, motorTorques]
      | hinge => simp [applyCopy, movable, copyTorques, ih]
      | hinge2 => simp [applyCopy, movable, copyTorques, ih]
      | ball => simp [applyCopy, movable, List.filterMap_cons, ih]
      | universal => simp [applyCopy, movable, List.filterMap_cons, ih]
      | slider => simp [applyCopy, movable, List.filterMap_cons, ih]
      | other => simp [applyCopy, movable, List.filterMap_cons, ih]
    · simp [applyCopy, movable, List.filterMap_cons, ih]
    · simp [applyCopy, movable, List.filterMap_cons, ih]

theorem widthOf_eq (o : Obj) : widthOf o = countOf o + if isSlider o then 1 else 0 := by
  rcases o with ⟨⟨i, k⟩⟩ | i | _
  · cases k <;> simp [widthOf, sensed, countOf, isSlider]
  · simp [widthOf, countOf, isSlider]
  · simp [widthOf, countOf, isSlider]

theorem sum_widthOf (os : List Obj) : (os.map widthOf).sum = countValues os + os.countP isSlider := by
  induction os with
  | nil => rfl
  | cons o os ih =>
    rw [List.map_cons, List.sum_cons, ih, widthOf_eq, countValues, countValues, List.map_cons, List.sum_cons, List.countP_cons]
    split <;> omega

/-- `n` steps of the engine without torques. -/
def coast (ph : Phys W K) : Nat → W → W
  | 0, w => w
  | n + 1, w => coast ph n (ph.step w [])

theorem steps_world (ph : Phys W K) : ∀ (m : Nat) (e : Env W K), (e.steps ph m).2 = none → e.forces = [] →
    (e.steps ph m).1.world = coast ph m e.world
  | 0, _, _, _ => rfl
  | m + 1, e, h, hf => by
    rw [Env.steps] at h ⊢
    cases hs : (e.step ph).2 with
    | some f => rw [hs] at h; simp at h
    | none =>
      rw [hs] at h
      simp only at h ⊢
      have hw : (e.step ph).1.world = ph.step e.world e.forces ∧ (e.step ph).1.forces = [] := by
        unfold Env.step
        simp only
        split <;> exact ⟨rfl, rfl⟩
      rw [steps_world ph m _ h hw.2, hw.1, hf, coast]

end

end Verif.Ode

namespace Verif.Props

open Verif.Ode

section
variable {W K : Type} [CommRing K]

/-- **C170, length of actions.** After any sequence of calls without an exception in which one file was loaded, the number of values in an action is the number of axes of the joints of all actuators; an actuator that copies counts as one. -/
theorem C170_indim (ph : Phys W K) (f : File W) (n : Nat) (ops : List (Op W K)) (e : Env W K) (hl : noLoad ops)
    (h : (newEnv f n : Env W K).run ph ops = (e, none)) :
    e.indim = ((addedActuators ops).map fun k => match k with
      | .copy _ => 1
      | k => (((objectsOf f.root k).filterMap movable).map fun j => axes j.kind).sum).sum := by
  have hi := run_ainv ops (⟨rfl, rfl, by simp [newEnv], rfl⟩ : AInv f [] (newEnv f n : Env W K)) hl h
  rw [List.nil_append] at hi
  rw [← hi.kinds, List.map_map]
  unfold Env.indim
  congr 1
  apply List.map_congr_left
  intro a ha
  have hc := (hi.conn a ha).num
  have key : ∀ os : List Obj, countValues os = ((os.filterMap movable).map fun j => axes j.kind).sum := by
    intro os
    induction os with
    | nil => rfl
    | cons o os ih =>
      rw [countValues, List.map_cons, List.sum_cons, ← countValues, ih]
      rcases o with ⟨⟨i, k⟩⟩ | i | _
      · cases k <;> simp [movable, countOf, axes, List.filterMap_cons]
      · simp [movable, countOf, List.filterMap_cons]
      · simp [movable, countOf, List.filterMap_cons]
  rw [hc]
  simp only [Function.comp]
  cases a.kind with
  | joints => exact key _
  | someJoints ns => exact key _
  | copy ns => rfl

/-- **C170, actions reach their joints.** After any sequence of calls without an exception in which one file was loaded (without motors of more than three axes) and in which no actuator that copies was added: an action with `indim` values is accepted. The torques then go to the movable joints, actuator by actuator and in the order of the file or of the given names; read in this order the torques of the axes are the action; further arguments are zero. -/
theorem C170_torques (ph : Phys W K) (f : File W) (n : Nat) (ops : List (Op W K)) (e : Env W K) (hl : noLoad ops)
    (h : (newEnv f n : Env W K).run ph ops = (e, none)) (hs : Sound f.root.tree.all)
    (hn : ∀ s o, f.root.named s = some o → Sound [o]) (hc : ∀ ns, AKind.copy ns ∉ addedActuators ops) (act : List K)
    (ha : act.length = e.indim) :
    ∃ calls : List (Call K), applyAll e.actuators act = (calls, none) ∧
      calls.map Prod.fst = (addedActuators ops).flatMap (fun k => (objectsOf f.root k).filterMap movable) ∧
      calls.flatMap axisTorques = act ∧ ∀ c ∈ calls, WellFormed c := by
  have hi := run_ainv ops (⟨rfl, rfl, by simp [newEnv], rfl⟩ : AInv f [] (newEnv f n : Env W K)) hl h
  rw [List.nil_append] at hi
  have hp : ∀ a ∈ e.actuators, Plain a := by
    intro a ha
    have hk : a.kind ∈ addedActuators ops := by
      rw [← hi.kinds]
      exact List.mem_map.2 ⟨a, ha, rfl⟩
    have hcn : ∀ ns, a.kind ≠ .copy ns := fun ns hx => hc ns (hx ▸ hk)
    have c := hi.conn a ha
    refine ⟨hcn, ?_, ?_⟩
    · have h2 := c.num
      rw [c.objs]
      cases hak : a.kind with
      | joints => rw [hak] at h2; exact h2
      | someJoints ns => rw [hak] at h2; exact h2
      | copy ns => exact absurd hak (hcn ns)
    · rw [c.objs]
      cases hak : a.kind with
      | joints => exact filter_sound hs _
      | someJoints ns =>
        intro o ho j m hj hm
        obtain ⟨s, -, hso⟩ := List.mem_filterMap.1 ho
        exact hn s o hso o List.mem_cons_self j m hj hm
      | copy ns => exact absurd hak (hcn ns)
  obtain ⟨r1, r2, r3, r4⟩ := applyAll_plain e.actuators act hp (by rw [ha]; rfl)
  refine ⟨(applyAll e.actuators act).1, Prod.ext rfl r1, ?_, ?_, r4⟩
  · rw [r2, ← hi.kinds, List.flatMap_map]
    apply List.flatMap_congr
    intro a ha
    rw [(hi.conn a ha).objs]
  · rw [r3]
    exact List.take_of_length_le (by rw [ha]; rfl)

/-- **C170, lengths that are accepted.** For actuators that are connected and do not copy: an action that is too short is refused with an AssertionError. An action that is too long is accepted, and the values at its end are ignored. -/
theorem C170_lengths (as : List Actuator) (act : List K) (ha : ∀ a ∈ as, Plain a) :
    ((applyAll as act).2 = some .assertion ↔ act.length < (as.map (·.num)).sum) ∧
      ((as.map (·.num)).sum ≤ act.length → (applyAll as act).2 = none ∧
        (applyAll as act).1.flatMap axisTorques = act.take (as.map (·.num)).sum) := by
  refine ⟨⟨fun h => ?_, applyAll_short as act ha⟩, fun h => ?_⟩
  · by_contra hlt
    rw [(applyAll_plain as act ha (not_lt.1 hlt)).1] at h
    simp at h
  · exact ⟨(applyAll_plain as act ha h).1, (applyAll_plain as act ha h).2.2.1⟩

/-- **C170, negation: actions are applied in part.** When an action is refused because it is too short for the second actuator, the torques for the first one have been added; they take effect in the next step. -/
theorem C170_negation_partial : ∃ (as : List Actuator) (act : List Int), (∀ a ∈ as, Plain a) ∧
    (applyAll as act).2 = some .assertion ∧ (applyAll as act).1 ≠ [] := by
  refine ⟨[⟨"a", .joints, 1, [.joint ⟨1, .hinge⟩]⟩, ⟨"b", .joints, 1, [.joint ⟨2, .hinge⟩]⟩], [5], ?_, by decide, by decide⟩
  intro a ha
  simp only [List.mem_cons, List.not_mem_nil, or_false] at ha
  rcases ha with rfl | rfl
  · refine ⟨by simp, by decide, ?_⟩
    intro o ho j m hj hm
    simp at ho
    subst ho
    injection hj with hj
    subst hj
    simp at hm
  · refine ⟨by simp, by decide, ?_⟩
    intro o ho j m hj hm
    simp at ho
    subst ho
    injection hj with hj
    subst hj
    simp at hm

/-- **C170, actuators that copy.** An actuator that copies gives the single value of the action to each of its movable joints: to both axes of a hinge2 joint, but ten times the value to each axis of a motor. -/
theorem C170_copy (name : String) (ns : List String) (os : List Obj) (x : K) (hs : Sound os) :
    Actuator.update ⟨name, .copy ns, 1, os⟩ [x] = ((os.filterMap movable).map (fun j => (j, copyTorques j x)), none) := by
  unfold Actuator.update
  rw [if_neg (by simp)]
  exact applyCopy_spec os x hs

/-- **C170, steps of an action.** An action that is accepted adds its torques to those that were added before, and `stepsPerAction` steps follow. The torques act in the first of them only; in the others the joints are without torques. -/
theorem C170_steps (ph : Phys W K) (e : Env W K) (act : List K) (n : Nat) (hn : e.stepsPerAction = n + 1)
    (h : (e.performAction ph act).2 = none) :
    (e.performAction ph act).1.world = coast ph n (ph.step e.world (e.forces ++ (applyAll e.actuators act).1)) := by
  unfold Env.performAction at h ⊢
  simp only at h ⊢
  cases hu : (applyAll e.actuators act).2 with
  | some f => rw [hu] at h; simp at h
  | none =>
    rw [hu] at h
    simp only at h ⊢
    have hn1 : ({ e with forces := e.forces ++ (applyAll e.actuators act).1 } : Env W K).stepsPerAction = n + 1 := hn
    have hw1 : ({ e with forces := e.forces ++ (applyAll e.actuators act).1 } : Env W K).world = e.world := rfl
    have hf1 : ({ e with forces := e.forces ++ (applyAll e.actuators act).1 } : Env W K).forces = e.forces ++ (applyAll e.actuators act).1 := rfl
    rw [← hw1, ← hf1]
    generalize ({ e with forces := e.forces ++ (applyAll e.actuators act).1 } : Env W K) = e1 at *
    rw [hn, Env.steps] at h
    rw [hn, Env.steps]
    cases hs : (e1.step ph).2 with
    | some f => rw [hs] at h; simp at h
    | none =>
      rw [hs] at h
      simp only at h ⊢
      have hw : (e1.step ph).1.world = ph.step e1.world e1.forces ∧ (e1.step ph).1.forces = [] := by
        unfold Env.step
        simp only
        split <;> exact ⟨rfl, rfl⟩
      rw [steps_world ph n _ h hw.2, hw.1]

/-- **C170, negation: torques last for one step.** With several steps for each action, the torques do not act in all steps: the outcome differs from the one of steps with torques. -/
theorem C170_negation_steps : ∃ (ph : Phys Int Int) (e : Env Int Int) (act : List Int), e.stepsPerAction = 2 ∧ act.length = e.indim ∧
    (e.performAction ph act).2 = none ∧
    (e.performAction ph act).1.world ≠ ph.step (ph.step e.world (applyAll e.actuators act).1) (applyAll e.actuators act).1 :=
  ⟨odeClock, ((newEnv odeFile 2 : Env Int Int).run odeClock [.addActuator "A" .joints]).1, [5], by decide +kernel⟩

/-- **C170, sensors and actuators.** In any file, a joint sensor and a joint velocity sensor have as many values as a joint actuator, plus one for each slider. -/
theorem C170_sliders (r : Root) : width r (.joints : SKind K) = countValues (objectsOf r .joints) + (r.tree.all.filter isJoint).countP isSlider ∧
    width r (.rates : SKind K) = width r (.joints : SKind K) :=
  ⟨sum_widthOf _, rfl⟩

/-- **C170, negation: files with sliders.** With a slider there are more joint angles than actions; the tasks for Johnnie and CCRL subtract the two. -/
theorem C170_negation_sliders : ∃ r : Root, width r (.joints : SKind Int) ≠ countValues (objectsOf r .joints) :=
  ⟨odeFile.root, by decide +kernel⟩

/-- a second file, with one other joint -/
def odeFile2 : File Int where
  root := ⟨.mk .none [.mk (.joint ⟨9, .hinge⟩) []], fun _ => none⟩
  world := 0
  hasWorld := true
  hasSpace := true

/-- **C170, negation: loading another file.** After another file has been loaded, the actuators still move the joints of the former file: the torque of the action goes to a joint that does not exist in the new file. -/
theorem C170_negation_load : ∃ (ph : Phys Int Int) (f g : File Int) (e : Env Int Int),
    (newEnv f 1 : Env Int Int).run ph [.addActuator "A" .joints, .load g] = (e, none) ∧
      ∃ c ∈ (applyAll e.actuators [(5 : Int)]).1, Obj.joint c.1 ∉ e.root.tree.all :=
  ⟨odeClock, odeFile, odeFile2, _, rfl, (⟨1, .hinge⟩, [5]), by decide +kernel, by decide +kernel⟩

example : ((newEnv odeFile 2 : Env Int Int).run odeClock odeOps).1.indim = 1 ∧
    (applyAll ((newEnv odeFile 2 : Env Int Int).run odeClock odeOps).1.actuators [(5 : Int)]).1 = [(⟨1, .hinge⟩, [5])] := by decide +kernel

example : (Actuator.update ⟨"c", .copy [], 1, [.joint ⟨1, .amotor 2⟩, .joint ⟨2, .hinge⟩]⟩ [(3 : Int)]).1 =
    [(⟨1, .amotor 2⟩, [30, 30, 0]), (⟨2, .hinge⟩, [3])] := by decide +kernel

end

end Verif.Props

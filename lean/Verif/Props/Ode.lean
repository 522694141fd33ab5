import Verif.Model.Ode
import Mathlib.LinearAlgebra.UnitaryGroup
import Mathlib.Analysis.Real.Sqrt
import Mathlib.LinearAlgebra.Matrix.DotProduct
import Mathlib.Tactic.Linarith

/-!
# C169: observations in the ODE environment
-/

namespace Verif.Ode

section
variable {W K : Type} [CommRing K]

/-! ### Specification -/

mutual
/-- The objects of a tree of nodes, in the order of the file. -/
def Node.all : Node → List Obj
  | .mk o cs => o :: Node.allOf cs

/-- The objects of several trees. -/
def Node.allOf : List Node → List Obj
  | [] => []
  | c :: cs => c.all ++ Node.allOf cs
end

/-- Joints. -/
def isJoint : Obj → Bool
  | .joint _ => true
  | _ => false

/-- Bodies. -/
def isBody : Obj → Bool
  | .body _ => true
  | _ => false

/-- The number of values that a joint has for the sensors. -/
def sensed : JKind → Nat
  | .amotor n => n
  | .hinge => 1
  | .hinge2 => 2
  | .slider => 1
  | _ => 0

/-- The values of an object: angles (or the distance of a slider). -/
def anglesOf (ph : Phys W K) (w : W) : Obj → List K
  | .joint j => if j.kind = .slider then [ph.slide w j.id] else (List.range (sensed j.kind)).map (ph.angle w j.id)
  | _ => []

/-- The values of an object: velocities. -/
def ratesOf (ph : Phys W K) (w : W) : Obj → List K
  | .joint j => if j.kind = .slider then [ph.slideRate w j.id] else (List.range (sensed j.kind)).map (ph.rate w j.id)
  | _ => []

/-- The coordinates of an object. -/
def coordsOf (ph : Phys W K) (w : W) : Obj → List K
  | .body i => List.ofFn (ph.pos w i)
  | _ => []

/-- The distance between a body and a point, as the engine computes it. -/
def distOf (ph : Phys W K) (w : W) (p : Fin 3 → K) : Option Obj → List K
  | some (.body i) => [norm ph (posRelPoint ph w i p)]
  | _ => []

/-- The distance between two bodies. -/
def distOf2 (ph : Phys W K) (w : W) : Option Obj → Option Obj → List K
  | o, some (.body j) => distOf ph w (ph.pos w j) o
  | _, _ => []

/-- What a sensor reports about a state of the world. -/
def reading (ph : Phys W K) (r : Root) (w : W) : SKind K → List K
  | .joints => (r.tree.all.filter isJoint).flatMap (anglesOf ph w)
  | .rates => (r.tree.all.filter isJoint).flatMap (ratesOf ph w)
  | .bodies => (r.tree.all.filter isBody).flatMap (coordsOf ph w)
  | .someJoints ns => (ns.filterMap r.named).flatMap (anglesOf ph w)
  | .someRates ns => (ns.filterMap r.named).flatMap (ratesOf ph w)
  | .someBodies ns => (ns.filterMap r.named).flatMap (coordsOf ph w)
  | .distTo b p => distOf ph w p (r.named b)
  | .bodyDist b1 b2 => distOf2 ph w (r.named b1) (r.named b2)

/-- The number of values of an object. -/
def widthOf : Obj → Nat
  | .joint j => sensed j.kind
  | _ => 0

/-- The number of values of a sensor. -/
def width (r : Root) : SKind K → Nat
  | .joints | .rates => ((r.tree.all.filter isJoint).map widthOf).sum
  | .someJoints ns | .someRates ns => ((ns.filterMap r.named).map widthOf).sum
  | .bodies => 3 * (r.tree.all.filter isBody).length
  | .someBodies ns => 3 * ns.length
  | .distTo _ _ | .bodyDist _ _ => 1

/-- The sensors that a sequence of calls has added since the last file was loaded. -/
def added : List (Op W K) → List (String × SKind K)
  | ops => ops.foldl (fun acc o => match o with
    | .load _ => []
    | .addSensor n k => acc ++ [(n, k)]
    | _ => acc) []

/-- The names that a sequence of calls has excluded. -/
def excludedBy (ops : List (Op W K)) : List String :=
  ops.flatMap fun o => match o with
    | .exclude ns => ns
    | _ => []

/-- The number of steps since the last reset. -/
def stepsSince (n : Nat) (ops : List (Op W K)) : Nat :=
  ops.foldl (fun acc o => match o with
    | .step => acc + 1
    | .action _ => acc + n
    | .reset => 0
    | _ => acc) 0

/-! ### Lemmas -/

mutual
theorem joints_eq : ∀ n : Node, n.joints = n.all.filter isJoint
  | .mk (.joint j) cs => by rw [Node.joints, Node.all, jointsAll_eq cs, List.filter_cons_of_pos rfl]
  | .mk (.body _) cs => by simp [Node.joints, Node.all, isJoint, jointsAll_eq cs]
  | .mk .none cs => by simp [Node.joints, Node.all, isJoint, jointsAll_eq cs]

theorem jointsAll_eq : ∀ cs : List Node, Node.jointsAll cs = (Node.allOf cs).filter isJoint
  | [] => rfl
  | c :: cs => by simp [Node.jointsAll, Node.allOf, joints_eq c, jointsAll_eq cs]
end

mutual
theorem bodies_eq : ∀ n : Node, n.bodies = n.all.filter isBody
  | .mk (.joint j) cs => by simp [Node.bodies, Node.all, isBody, bodiesAll_eq cs]
  | .mk (.body _) cs => by rw [Node.bodies, Node.all, bodiesAll_eq cs, List.filter_cons_of_pos rfl]
  | .mk .none cs => by simp [Node.bodies, Node.all, isBody, bodiesAll_eq cs]

theorem bodiesAll_eq : ∀ cs : List Node, Node.bodiesAll cs = (Node.allOf cs).filter isBody
  | [] => rfl
  | c :: cs => by simp [Node.bodiesAll, Node.allOf, bodies_eq c, bodiesAll_eq cs]
end

theorem jointAngles_eq (ph : Phys W K) (w : W) (o : Obj) : jointAngles ph w o = anglesOf ph w o := by
  rcases o with ⟨⟨i, k⟩⟩ | _ | _
  · cases k <;> simp [jointAngles, anglesOf, sensed, List.range_succ]
  · rfl
  · rfl

theorem jointRates_eq (ph : Phys W K) (w : W) (o : Obj) : jointRates ph w o = ratesOf ph w o := by
  rcases o with ⟨⟨i, k⟩⟩ | _ | _
  · cases k <;> simp [jointRates, ratesOf, sensed, List.range_succ]
  · rfl
  · rfl

theorem bodyPositions_ok (ph : Phys W K) (w : W) : ∀ (os : List Obj) (vs : List K),
    bodyPositions ph w os = .ok vs → vs = os.flatMap (coordsOf ph w) ∧ ∀ o ∈ os, isBody o = true
  | [], vs, h => by
    simp [bodyPositions] at h
    simp [← h]
  | .body i :: os, vs, h => by
    rw [bodyPositions] at h
    cases h1 : bodyPositions ph w os with
    | error f => rw [h1] at h; simp at h
    | ok us =>
      rw [h1] at h
      injection h with h
      obtain ⟨h2, h3⟩ := bodyPositions_ok ph w os us h1
      refine ⟨?_, ?_⟩
      · rw [← h, List.flatMap_cons, ← h2]
        simp [coordsOf, List.ofFn_succ]
      · intro o ho
        rcases List.mem_cons.1 ho with rfl | ho
        · rfl
        · exact h3 o ho
  | .joint _ :: os, vs, h => by simp [bodyPositions] at h
  | .none :: os, vs, h => by simp [bodyPositions] at h

theorem lookup_ok (r : Root) : ∀ (ns : List String), (lookup r ns).2 = none →
    (lookup r ns).1 = ns.filterMap r.named ∧ (ns.filterMap r.named).length = ns.length
  | [], _ => by simp [lookup]
  | n :: ns, h => by
    rw [lookup] at h ⊢
    cases h1 : r.named n with
    | none => rw [h1] at h; simp at h
    | some o =>
      rw [h1] at h
      obtain ⟨h2, h3⟩ := lookup_ok r ns h
      simp [h1, h2, h3]

/-- A sensor is connected to the world. -/
structure Conn (r : Root) (s : Sensor K) : Prop where
  objs : s.kind.isDist = false → s.find r = (s.objs, none)
  num : s.values.length = s.num
  wide : s.num = width r s.kind

theorem update_ok (ph : Phys W K) (r : Root) (w : W) (s s' : Sensor K)
    (hobj : s.kind.isDist = false → s.find r = (s.objs, none)) (h : s.update ph r w = .ok s') :
    s'.values = reading ph r w s.kind ∧ s'.name = s.name ∧ s'.kind = s.kind ∧ s'.objs = s.objs ∧
      s'.num = s.num ∧ (s.kind.isDist = true → s'.values.length = s.num) := by
  rcases s with ⟨name, k, num, vals, objs⟩
  cases k with
  | joints =>
    have ho := hobj rfl
    simp only [Sensor.find, Prod.mk.injEq, and_true] at ho
    simp only [Sensor.update, Except.ok.injEq] at h
    subst h
    simp [reading, ← ho, joints_eq, jointAngles_eq, SKind.isDist, funext (jointAngles_eq ph w)]
  | rates =>
    have ho := hobj rfl
    simp only [Sensor.find, Prod.mk.injEq, and_true] at ho
    simp only [Sensor.update, Except.ok.injEq] at h
    subst h
    simp [reading, ← ho, joints_eq, jointRates_eq, SKind.isDist, funext (jointRates_eq ph w)]
  | someJoints ns =>
    have ho := hobj rfl
    simp only [Sensor.find] at ho
    have h2 := lookup_ok r ns (by rw [ho])
    rw [ho] at h2
    simp only at h2
    simp only [Sensor.update, Except.ok.injEq] at h
    subst h
    simp [reading, h2.1, SKind.isDist, funext (jointAngles_eq ph w)]
  | someRates ns =>
    have ho := hobj rfl
    simp only [Sensor.find] at ho
    have h2 := lookup_ok r ns (by rw [ho])
    rw [ho] at h2
    simp only at h2
    simp only [Sensor.update, Except.ok.injEq] at h
    subst h
    simp [reading, h2.1, SKind.isDist, funext (jointRates_eq ph w)]
  | bodies =>
    have ho := hobj rfl
    simp only [Sensor.find, Prod.mk.injEq, and_true] at ho
    simp only [Sensor.update] at h
    cases h1 : bodyPositions ph w objs with
    | error f => rw [h1] at h; simp at h
    | ok vs =>
      rw [h1] at h
      simp only [Except.ok.injEq] at h
      subst h
      have h3 := (bodyPositions_ok ph w objs vs h1).1
      simp [reading, h3, ← ho, bodies_eq, SKind.isDist]
  | someBodies ns =>
    have ho := hobj rfl
    simp only [Sensor.find] at ho
    have h2 := lookup_ok r ns (by rw [ho])
    rw [ho] at h2
    simp only at h2
    simp only [Sensor.update] at h
    cases h1 : bodyPositions ph w objs with
    | error f => rw [h1] at h; simp at h
    | ok vs =>
      rw [h1] at h
      simp only [Except.ok.injEq] at h
      subst h
      have h3 := (bodyPositions_ok ph w objs vs h1).1
      simp [reading, h3, h2.1, SKind.isDist]
  | distTo b p =>
    simp only [Sensor.update] at h
    rcases h1 : r.named b with _ | ⟨_ | i | _⟩ <;> rw [h1] at h <;> simp [Sensor.setValues] at h
    by_cases hn : num = 1
    · subst hn
      simp only [if_true, Except.ok.injEq] at h
      subst h
      simp [reading, h1, distOf]
    · rw [if_neg (Ne.symm hn)] at h
      simp at h
  | bodyDist b1 b2 =>
    simp only [Sensor.update] at h
    rcases h1 : r.named b1 with _ | ⟨_ | i | _⟩ <;> rcases h2 : r.named b2 with _ | ⟨_ | j | _⟩ <;>
      rw [h1, h2] at h <;> simp [Sensor.setValues] at h
    by_cases hn : num = 1
    · subst hn
      simp only [if_true, Except.ok.injEq] at h
      subst h
      simp [reading, h1, h2, distOf, distOf2]
    · rw [if_neg (Ne.symm hn)] at h
      simp at h

theorem length_anglesOf (ph : Phys W K) (w : W) (o : Obj) : (anglesOf ph w o).length = widthOf o := by
  rcases o with ⟨⟨i, k⟩⟩ | _ | _
  · by_cases hk : k = .slider
    · subst hk; simp [anglesOf, widthOf, sensed]
    · simp [anglesOf, widthOf, hk]
  · rfl
  · rfl

theorem length_ratesOf (ph : Phys W K) (w : W) (o : Obj) : (ratesOf ph w o).length = widthOf o := by
  rcases o with ⟨⟨i, k⟩⟩ | _ | _
  · by_cases hk : k = .slider
    · subst hk; simp [ratesOf, widthOf, sensed]
    · simp [ratesOf, widthOf, hk]
  · rfl
  · rfl

theorem length_coords (ph : Phys W K) (w : W) (os : List Obj) (h : ∀ o ∈ os, isBody o = true) :
    (os.flatMap (coordsOf ph w)).length = 3 * os.length := by
  induction os with
  | nil => rfl
  | cons o os ih =>
    rw [List.flatMap_cons, List.length_append, ih fun x hx => h x (List.mem_cons_of_mem _ hx)]
    have := h o List.mem_cons_self
    rcases o with _ | i | _
    · simp [isBody] at this
    · simp [coordsOf]; omega
    · simp [isBody] at this

/-- A sensor that could be updated reads as many values as its class and the file say. -/
theorem length_update (ph : Phys W K) (r : Root) (w : W) (s s' : Sensor K)
    (hobj : s.kind.isDist = false → s.find r = (s.objs, none)) (hd : s.kind.isDist = true → s.num = 1)
    (h : s.update ph r w = .ok s') : s'.values.length = width r s.kind := by
  obtain ⟨h1, -, -, -, h5, h6⟩ := update_ok ph r w s s' hobj h
  rcases s with ⟨name, k, num, vals, objs⟩
  cases k with
  | joints => simp [h1, reading, width, List.length_flatMap, length_anglesOf]
  | rates => simp [h1, reading, width, List.length_flatMap, length_ratesOf]
  | someJoints ns => simp [h1, reading, width, List.length_flatMap, length_anglesOf]
  | someRates ns => simp [h1, reading, width, List.length_flatMap, length_ratesOf]
  | bodies =>
    rw [h1]
    simp only [reading, width]
    exact length_coords ph w _ fun o ho => (List.mem_filter.1 ho).2
  | someBodies ns =>
    have ho := hobj rfl
    simp only [Sensor.find] at ho
    have h2 := lookup_ok r ns (by rw [ho])
    rw [ho] at h2
    simp only at h2
    rw [h1]
    simp only [reading, width]
    rw [← h2.2]
    apply length_coords
    simp only [Sensor.update] at h
    cases h7 : bodyPositions ph w objs with
    | error f => rw [h7] at h; simp at h
    | ok vs =>
      rw [← h2.1]
      exact (bodyPositions_ok ph w objs vs h7).2
  | distTo b p => rw [h6 rfl, hd rfl]; rfl
  | bodyDist b1 b2 => rw [h6 rfl, hd rfl]; rfl

theorem connect_ok (ph : Phys W K) (r : Root) (w : W) (s : Sensor K)
    (hd : s.kind.isDist = true → s.values.length = 1 ∧ s.num = 1) (h : (s.connect ph r w).2 = none) :
    Conn r (s.connect ph r w).1 ∧ (s.connect ph r w).1.name = s.name ∧ (s.connect ph r w).1.kind = s.kind ∧
      (s.kind.isDist = false → (s.connect ph r w).1.values = reading ph r w s.kind) := by
  unfold Sensor.connect at h ⊢
  by_cases hk : s.kind.isDist = true
  · rw [if_pos hk]
    obtain ⟨h1, h2⟩ := hd hk
    refine ⟨⟨fun h' => by simp [hk] at h', by rw [h1, h2], ?_⟩, rfl, rfl, fun h' => by simp [hk] at h'⟩
    rw [h2]
    rcases s with ⟨name, k, num, vals, objs⟩
    cases k <;> simp_all [SKind.isDist, width]
  · rw [if_neg hk] at h ⊢
    have hk' : s.kind.isDist = false := by simpa using hk
    have hf1 : ∀ (q : List Obj), (Sensor.find r { s with objs := q }) = s.find r := fun q => rfl
    cases hf : (s.find r).2 with
    | some e => simp [hf] at h
    | none =>
      have hobj : ({ s with objs := (s.find r).1 } : Sensor K).kind.isDist = false →
          ({ s with objs := (s.find r).1 } : Sensor K).find r = (({ s with objs := (s.find r).1 } : Sensor K).objs, none) := by
        intro _
        rw [hf1]
        exact Prod.ext rfl hf
      simp only [hf] at h ⊢
      cases hu : ({ s with objs := (s.find r).1 } : Sensor K).update ph r w with
      | error e => rw [hu] at h; simp at h
      | ok s2 =>
        have h3 := update_ok ph r w _ s2 hobj hu
        have h4 := length_update ph r w _ s2 hobj (fun h' => by simp [hk'] at h') hu
        obtain ⟨e1, e2, e3, e4, -, -⟩ := h3
        refine ⟨⟨?_, rfl, ?_⟩, e2, e3, fun _ => e1⟩
        · intro _
          show Sensor.find r _ = (s2.objs, none)
          rw [e4]
          rw [← hobj hk']
          show Sensor.find r { s2 with num := s2.values.length } = s.find r
          unfold Sensor.find
          rw [show ({ s2 with num := s2.values.length } : Sensor K).kind = s.kind from e3]
        · show s2.values.length = width r s2.kind
          rw [h4, e3]

/-- All sensors of a list are connected and the classes of joints and bodies show the state of the
world. -/
def Good (ph : Phys W K) (r : Root) (w : W) (ss : List (Sensor K)) : Prop :=
  ∀ s ∈ ss, Conn r s ∧ (s.kind.isDist = false → s.values = reading ph r w s.kind)

theorem updateAll_ok (ph : Phys W K) (r : Root) (w : W) : ∀ (ss : List (Sensor K)),
    (∀ s ∈ ss, Conn r s) → (updateAll ph r w ss).2 = none →
    (∀ s ∈ (updateAll ph r w ss).1, Conn r s ∧ s.values = reading ph r w s.kind) ∧
      (updateAll ph r w ss).1.map (fun s => (s.name, s.kind)) = ss.map (fun s => (s.name, s.kind))
  | [], _, _ => ⟨by simp [updateAll], rfl⟩
  | s :: ss, hc, h => by
    rw [updateAll] at h ⊢
    cases hu : s.update ph r w with
    | error e => rw [hu] at h; simp at h
    | ok s' =>
      rw [hu] at h
      simp only at h ⊢
      obtain ⟨i1, i2⟩ := updateAll_ok ph r w ss (fun x hx => hc x (List.mem_cons_of_mem _ hx)) h
      have hs := hc s List.mem_cons_self
      have hnum : s.kind.isDist = true → s.num = 1 := by
        intro hd
        rw [hs.wide]
        rcases s with ⟨name, k, num, vals, objs⟩
        cases k <;> simp_all [SKind.isDist, width]
      obtain ⟨e1, e2, e3, e4, e5, -⟩ := update_ok ph r w s s' hs.objs hu
      have e7 := length_update ph r w s s' hs.objs hnum hu
      refine ⟨?_, by simp [e2, e3, i2]⟩
      intro x hx
      rcases List.mem_cons.1 hx with rfl | hx
      · refine ⟨⟨?_, ?_, ?_⟩, by rw [e1, e3]⟩
        · intro hd
          rw [e3] at hd
          rw [e4, ← hs.objs hd]
          unfold Sensor.find
          rw [e3]
        · rw [e7, e5, hs.wide]
        · rw [e5, hs.wide, e3]
      · exact i1 x hx

theorem isDist_width (r : Root) (k : SKind K) (h : k.isDist = true) : width r k = 1 := by
  cases k <;> simp_all [SKind.isDist, width]

theorem connectAll_ok (ph : Phys W K) (r r0 : Root) (w : W) : ∀ (ss : List (Sensor K)),
    (∀ s ∈ ss, Conn r0 s) → (connectAll ph r w ss).2 = none →
    Good ph r w (connectAll ph r w ss).1 ∧
      (connectAll ph r w ss).1.map (fun s => (s.name, s.kind)) = ss.map (fun s => (s.name, s.kind))
  | [], _, _ => ⟨by simp [connectAll, Good], rfl⟩
  | s :: ss, hc, h => by
    rw [connectAll] at h ⊢
    cases hu : (s.connect ph r w).2 with
    | some e => rw [hu] at h; simp at h
    | none =>
      rw [hu] at h
      simp only at h ⊢
      obtain ⟨i1, i2⟩ := connectAll_ok ph r r0 w ss (fun x hx => hc x (List.mem_cons_of_mem _ hx)) h
      have hs := hc s List.mem_cons_self
      obtain ⟨e1, e2, e3, e4⟩ := connect_ok ph r w s (fun hd => by
        rw [hs.num, hs.wide, isDist_width r0 _ hd]; exact ⟨rfl, rfl⟩) hu
      refine ⟨?_, by simp [e2, e3, i2]⟩
      intro x hx
      rcases List.mem_cons.1 hx with rfl | hx
      · exact ⟨e1, fun hd => by rw [e3] at hd ⊢; exact e4 hd⟩
      · exact i1 x hx

/-- The state after a sequence of calls. -/
structure SInv (ph : Phys W K) (n : Nat) (ad : List (String × SKind K)) (ex : List String) (cnt : Nat)
    (e : Env W K) : Prop where
  good : Good ph e.root e.world e.sensors
  names : e.sensors.map (fun s => (s.name, s.kind)) = ad
  excl : e.excluded = ex
  steps : e.stepsPerAction = n
  count : e.counter = cnt

/-- All sensors show the state of the world. -/
def Fresh (ph : Phys W K) (e : Env W K) : Prop := ∀ s ∈ e.sensors, s.values = reading ph e.root e.world s.kind

theorem step_inv {ph : Phys W K} {n : Nat} {ad : List (String × SKind K)} {ex : List String} {cnt : Nat} {e : Env W K}
    (hi : SInv ph n ad ex cnt e) (h : (e.step ph).2 = none) :
    SInv ph n ad ex (cnt + 1) (e.step ph).1 ∧ Fresh ph (e.step ph).1 := by
  unfold Env.step at h ⊢
  simp only at h ⊢
  cases hu : (updateAll ph e.root (ph.step e.world e.forces) e.sensors).2 with
  | some f => rw [hu] at h; simp at h
  | none =>
    simp only
    obtain ⟨i1, i2⟩ := updateAll_ok ph e.root (ph.step e.world e.forces) e.sensors (fun s hs => (hi.good s hs).1) hu
    refine ⟨⟨fun s hs => ⟨(i1 s hs).1, fun _ => (i1 s hs).2⟩, by rw [← hi.names]; exact i2, hi.excl, hi.steps, by rw [hi.count]⟩, fun s hs => (i1 s hs).2⟩

theorem steps_inv {ph : Phys W K} {n : Nat} {ad : List (String × SKind K)} {ex : List String} :
    ∀ (m : Nat) {cnt : Nat} {e : Env W K}, SInv ph n ad ex cnt e → (e.steps ph m).2 = none →
      SInv ph n ad ex (cnt + m) (e.steps ph m).1 ∧ (0 < m → Fresh ph (e.steps ph m).1)
  | 0, _, _, hi, _ => ⟨hi, fun h => absurd h (lt_irrefl _)⟩
  | m + 1, cnt, e, hi, h => by
    rw [Env.steps] at h ⊢
    cases hs : (e.step ph).2 with
    | some f => rw [hs] at h; simp at h
    | none =>
      rw [hs] at h
      simp only at h ⊢
      obtain ⟨i1, i2⟩ := step_inv hi hs
      obtain ⟨j1, j2⟩ := steps_inv m i1 h
      refine ⟨by rw [show cnt + (m + 1) = cnt + 1 + m by omega]; exact j1, fun _ => ?_⟩
      rcases m with _ | m
      · exact i2
      · exact j2 (Nat.succ_pos _)

/-- How one call changes the lists of the specification. -/
def addedStep (acc : List (String × SKind K)) : Op W K → List (String × SKind K)
  | .load _ => []
  | .addSensor n k => acc ++ [(n, k)]
  | _ => acc

theorem op_inv {ph : Phys W K} {n : Nat} {ad : List (String × SKind K)} {ex : List String} {cnt : Nat} {e : Env W K}
    (hi : SInv ph n ad ex cnt e) (o : Op W K) (h : (e.op ph o).2 = none) :
    SInv ph n (addedStep ad o) (ex ++ excludedBy [o]) ([o].foldl (fun acc o => match o with
    | .step => acc + 1
    | .action _ => acc + n
    | .reset => 0
    | _ => acc) cnt) (e.op ph o).1 := by
  cases o with
  | load f =>
    exact ⟨by simp [Env.op, Env.loadXODE, Good], by simp [Env.op, Env.loadXODE, addedStep],
      by simp [Env.op, Env.loadXODE, excludedBy, hi.excl], by simp [Env.op, Env.loadXODE, hi.steps], by simp [Env.op, Env.loadXODE, hi.count]⟩
  | addSensor nm k =>
    simp only [Env.op, Env.addSensor] at h ⊢
    have hd : (newSensor nm k).kind.isDist = true → (newSensor nm k).values.length = 1 ∧ (newSensor nm k).num = 1 := by
      cases k <;> simp [newSensor, SKind.isDist]
    have hnk : (newSensor nm k).name = nm ∧ (newSensor nm k).kind = k := by
      cases k <;> simp [newSensor]
    obtain ⟨e1, e2, e3, e4⟩ := connect_ok ph e.root e.world _ hd h
    refine ⟨?_, ?_, by simp [excludedBy, hi.excl], hi.steps, hi.count⟩
    · intro s hs
      rcases List.mem_append.1 hs with hs | hs
      · exact hi.good s hs
      · rw [List.mem_singleton] at hs
        subst hs
        exact ⟨e1, fun hd => by rw [e3] at hd ⊢; exact e4 hd⟩
    · simp [hi.names, addedStep, e2, e3, hnk]
  | addActuator nm k =>
    exact ⟨hi.good, hi.names, by simp [Env.op, Env.addActuator, excludedBy, hi.excl], hi.steps, hi.count⟩
  | exclude ns =>
    exact ⟨hi.good, hi.names, by simp [Env.op, Env.excludeSensors, excludedBy, hi.excl], hi.steps, hi.count⟩
  | action a =>
    simp only [Env.op, Env.performAction] at h ⊢
    cases hu : (applyAll e.actuators a).2 with
    | some f => rw [hu] at h; simp at h
    | none =>
      rw [hu] at h
      simp only at h ⊢
      have hi' : SInv ph n ad ex cnt { e with forces := e.forces ++ (applyAll e.actuators a).1 } :=
        ⟨hi.good, hi.names, hi.excl, hi.steps, hi.count⟩
      have h2 := (steps_inv e.stepsPerAction hi' h).1
      rw [hi.steps] at h2
      rw [hi.steps]
      simpa [addedStep, excludedBy] using h2
  | step =>
    have h2 := (step_inv hi h).1
    simpa [addedStep, excludedBy, Env.op] using h2
  | reset =>
    simp only [Env.op, Env.reset] at h ⊢
    cases hc : (connectAll ph e.file.root e.file.world e.sensors).2 with
    | some f => rw [hc] at h; simp at h
    | none =>
      rw [hc] at h
      simp only at h ⊢
      cases ha : (connectActuators e.file.root e.actuators).2 with
      | some f => rw [ha] at h; simp at h
      | none =>
        simp only
        obtain ⟨i1, i2⟩ := connectAll_ok ph e.file.root e.root e.file.world e.sensors (fun s hs => (hi.good s hs).1) hc
        exact ⟨i1, by rw [i2, hi.names]; rfl, by simp [excludedBy, hi.excl], hi.steps, rfl⟩

theorem run_inv {ph : Phys W K} {n : Nat} : ∀ (ops : List (Op W K)) {ad : List (String × SKind K)} {ex : List String}
    {cnt : Nat} {e e' : Env W K}, SInv ph n ad ex cnt e → e.run ph ops = (e', none) →
    SInv ph n (ops.foldl addedStep ad) (ex ++ excludedBy ops) (ops.foldl (fun acc o => match o with
    | .step => acc + 1
    | .action _ => acc + n
    | .reset => 0
    | _ => acc) cnt) e'
  | [], ad, ex, cnt, e, e', hi, h => by
    simp only [Env.run, Prod.mk.injEq, and_true] at h
    subst h
    simpa [excludedBy] using hi
  | o :: os, ad, ex, cnt, e, e', hi, h => by
    rw [Env.run] at h
    cases ho : (e.op ph o).2 with
    | some f => rw [ho] at h; simp at h
    | none =>
      rw [ho] at h
      have h1 := op_inv hi o ho
      have h2 := run_inv os h1 h
      have : ex ++ excludedBy [o] ++ excludedBy os = ex ++ excludedBy (o :: os) := by simp [excludedBy]
      rw [this] at h2
      exact h2

theorem added_eq (ops : List (Op W K)) : added ops = ops.foldl addedStep [] := by
  unfold added
  congr 1

theorem newEnv_inv (ph : Phys W K) (f : File W) (n : Nat) : SInv ph n [] [] 0 (newEnv f n : Env W K) :=
  ⟨by simp [Good, newEnv], rfl, rfl, rfl, rfl⟩

theorem run_append (ph : Phys W K) : ∀ (a b : List (Op W K)) (e e' : Env W K), e.run ph (a ++ b) = (e', none) →
    ∃ m, e.run ph a = (m, none) ∧ m.run ph b = (e', none)
  | [], b, e, e', h => ⟨e, rfl, h⟩
  | o :: a, b, e, e', h => by
    rw [List.cons_append, Env.run] at h
    rw [Env.run]
    cases ho : (e.op ph o).2 with
    | some f => rw [ho] at h; simp at h
    | none =>
      rw [ho] at h
      exact run_append ph a b _ _ h

/-- The output in terms of the names and classes of the sensors. -/
theorem getSensors_eq (e : Env W K) (g : SKind K → List K) (h : ∀ s ∈ e.sensors, s.values = g s.kind) :
    e.getSensors = ((e.sensors.map fun s => (s.name, s.kind)).filter fun p => !e.excluded.contains p.1).flatMap fun p => g p.2 := by
  unfold Env.getSensors
  generalize e.sensors = ss at h ⊢
  induction ss with
  | nil => rfl
  | cons s ss ih =>
    have ih := ih fun x hx => h x (List.mem_cons_of_mem _ hx)
    rw [List.map_cons, List.filter_cons, List.filter_cons]
    by_cases hx : (!e.excluded.contains s.name) = true
    · rw [if_pos hx, if_pos hx, List.flatMap_cons, List.flatMap_cons, ih, h s List.mem_cons_self]
    · rw [if_neg hx, if_neg hx, ih]

end

end Verif.Ode

namespace Verif.Props

open Verif.Ode

section
variable {W K : Type} [CommRing K]

/-- **C169, observations.** Consider any sequence of calls without an exception. If it adds no sensors of distances, or if it ends with a step, then the observation consists of the readings of the sensors that were added since the file was loaded and that are not excluded, in the order in which they were added, and all of them show the current state of the world. A joint sensor reports all joints of the file in the order of the file. -/
theorem C169_observation (ph : Phys W K) (f : File W) (n : Nat) (ops : List (Op W K)) (e : Env W K)
    (h : (newEnv f n : Env W K).run ph ops = (e, none))
    (hd : (∀ p ∈ added ops, p.2.isDist = false) ∨ ∃ pre, ops = pre ++ [.step]) :
    e.getSensors = ((added ops).filter fun p => !(excludedBy ops).contains p.1).flatMap fun p => reading ph e.root e.world p.2 := by
  have hi := run_inv ops (newEnv_inv ph f n) h
  rw [← added_eq] at hi
  have hfresh : Fresh ph e := by
    rcases hd with hd | ⟨pre, rfl⟩
    · intro s hs
      apply (hi.good s hs).2
      apply hd (s.name, s.kind)
      rw [← hi.names]
      exact List.mem_map.2 ⟨s, hs, rfl⟩
    · obtain ⟨m, h1, h2⟩ := run_append ph pre [.step] _ _ h
      have hm := run_inv pre (newEnv_inv ph f n) h1
      rw [Env.run] at h2
      cases ho : (m.op ph .step).2 with
      | some f => rw [ho] at h2; simp at h2
      | none =>
        rw [ho] at h2
        simp only [Env.run, Prod.mk.injEq, and_true] at h2
        rw [← h2]
        exact (step_inv hm ho).2
  rw [getSensors_eq e _ hfresh, hi.names, hi.excl]
  simp

/-- **C169, sizes.** After any sequence of calls without an exception, each sensor reports as many values as it announces. The length of the observation is the sum over the sensors that were added and not excluded, and depends only on the file: steps, actions and resets do not change it. -/
theorem C169_sizes (ph : Phys W K) (f : File W) (n : Nat) (ops : List (Op W K)) (e : Env W K)
    (h : (newEnv f n : Env W K).run ph ops = (e, none)) :
    (∀ s ∈ e.sensors, s.values.length = s.num) ∧
      e.outdim = (((added ops).filter fun p => !(excludedBy ops).contains p.1).map fun p => width e.root p.2).sum := by
  have hi := run_inv ops (newEnv_inv ph f n) h
  rw [← added_eq] at hi
  refine ⟨fun s hs => (hi.good s hs).1.num, ?_⟩
  have hex : e.excluded = excludedBy ops := by rw [hi.excl]; simp
  rw [← hi.names, ← hex]
  unfold Env.outdim Env.getSensors
  have hg : ∀ s ∈ e.sensors, s.values.length = width e.root s.kind := fun s hs => by
    rw [(hi.good s hs).1.num, (hi.good s hs).1.wide]
  generalize e.sensors = ss at hg ⊢
  induction ss with
  | nil => rfl
  | cons s ss ih =>
    have ih := ih fun x hx => hg x (List.mem_cons_of_mem _ hx)
    rw [List.map_cons, List.filter_cons, List.filter_cons]
    by_cases hx : (!e.excluded.contains s.name) = true
    · rw [if_pos hx, if_pos hx, List.flatMap_cons, List.length_append, ih, hg s List.mem_cons_self, List.map_cons, List.sum_cons]
    · rw [if_neg hx, if_neg hx, ih]

/-- **C169, number of steps.** After any sequence of calls without an exception the environment reports the number of simulation steps since the last reset. -/
theorem C169_steps (ph : Phys W K) (f : File W) (n : Nat) (ops : List (Op W K)) (e : Env W K)
    (h : (newEnv f n : Env W K).run ph ops = (e, none)) : e.counter = stepsSince n ops :=
  (run_inv ops (newEnv_inv ph f n) h).count

/-- **C169, sensors by name.** After any sequence of calls without an exception that ends with a step, asking for a name gives the reading of the first sensor that was added under this name, excluded or not, and nothing if there is none. -/
theorem C169_by_name (ph : Phys W K) (f : File W) (n : Nat) (pre : List (Op W K)) (e : Env W K) (name : String)
    (h : (newEnv f n : Env W K).run ph (pre ++ [.step]) = (e, none)) :
    e.getSensorByName name = match (added (pre ++ [.step])).find? fun p => p.1 == name with
      | some p => reading ph e.root e.world p.2
      | none => [] := by
  have hi := run_inv _ (newEnv_inv ph f n) h
  rw [← added_eq] at hi
  obtain ⟨m, h1, h2⟩ := run_append ph pre [.step] _ _ h
  have hm := run_inv pre (newEnv_inv ph f n) h1
  have hfresh : Fresh ph e := by
    rw [Env.run] at h2
    cases ho : (m.op ph .step).2 with
    | some f => rw [ho] at h2; simp at h2
    | none =>
      rw [ho] at h2
      simp only [Env.run, Prod.mk.injEq, and_true] at h2
      rw [← h2]
      exact (step_inv hm ho).2
  rw [← hi.names]
  unfold Env.getSensorByName
  unfold Fresh at hfresh
  generalize e.sensors = ss at hfresh ⊢
  induction ss with
  | nil => rfl
  | cons s ss ih =>
    rw [List.map_cons, List.find?_cons, List.find?_cons]
    by_cases hx : (s.name == name) = true
    · simp only [hx]
      exact hfresh s List.mem_cons_self
    · have : (s.name == name) = false := by simpa using hx
      simp only [this]
      exact ih fun x hx => hfresh x (List.mem_cons_of_mem _ hx)

/-- a world whose only number is the time -/
def odeClock : Phys Int Int where
  angle w i k := w + i + k
  rate _ i _ := i
  slide w i := w * i
  slideRate _ _ := 0
  pos w i k := w + i + k
  rot _ _ := 1
  sqrt x := x
  step w fs := w + 1 + fs.length

/-- a file with a hinge, a slider and a body -/
def odeFile : File Int where
  root := ⟨.mk .none [.mk (.body 7) [.mk (.joint ⟨1, .hinge⟩) []], .mk (.joint ⟨2, .slider⟩) []],
    fun s => if s = "knee" then some (.joint ⟨1, .hinge⟩) else if s = "leg" then some (.body 7) else none⟩
  world := 10
  hasWorld := true
  hasSpace := true

/-- a history with sensors of each sort -/
def odeOps : List (Op Int Int) :=
  [.addSensor "J" .joints, .addSensor "V" .rates, .addSensor "P" .bodies, .addSensor "D" (.distTo "leg" 0), .exclude ["V"], .addActuator "A" .joints, .action [5], .reset, .step]

example : ((newEnv odeFile 2 : Env Int Int).run odeClock odeOps).2 = none ∧
    ((newEnv odeFile 2 : Env Int Int).run odeClock odeOps).1.getSensors = [12, 22, 18, 19, 20, 18 ^ 2 + 19 ^ 2 + 20 ^ 2] ∧
    ((newEnv odeFile 2 : Env Int Int).run odeClock odeOps).1.counter = 1 := by decide +kernel

/-- **C169, distances.** If the rotations of the bodies are orthogonal, the distance sensors report Euclidean distances: between the position of the body and the point, and between the positions of the two bodies. -/
theorem C169_distance (ph : Phys W ℝ) (r : Root) (w : W) (hs : ∀ x, ph.sqrt x = Real.sqrt x)
    (hr : ∀ i, ph.rot w i * (ph.rot w i).transpose = 1) (b b' : String) (i j : Nat) (p : Fin 3 → ℝ)
    (hb : r.named b = some (.body i)) (hb' : r.named b' = some (.body j)) :
    reading ph r w (.distTo b p) = [Real.sqrt (∑ k, (p k - ph.pos w i k) ^ 2)] ∧
      reading ph r w (.bodyDist b b') = [Real.sqrt (∑ k, (ph.pos w j k - ph.pos w i k) ^ 2)] := by
  have key : ∀ q : Fin 3 → ℝ, norm ph (posRelPoint ph w i q) = Real.sqrt (∑ k, (q k - ph.pos w i k) ^ 2) := by
    intro q
    unfold norm posRelPoint
    rw [hs]
    congr 1
    have e1 : ∀ v : Fin 3 → ℝ, ∑ k, v k ^ 2 = dotProduct v v := fun v => by simp [dotProduct, pow_two]
    rw [e1, Matrix.dotProduct_mulVec, Matrix.vecMul_transpose, Matrix.mulVec_mulVec, hr i, Matrix.one_mulVec, ← e1]
    simp
  simp [reading, hb, hb', distOf, distOf2, key]

example : (1 : Matrix (Fin 3) (Fin 3) ℝ) * (1 : Matrix (Fin 3) (Fin 3) ℝ).transpose = 1 := by simp

/-- **C169, negation: a distance of zero.** A sensor of the distance to a point reports the distance 0 after it has been added, whatever the state of the world. -/
theorem C169_negation_initial (ph : Phys W K) (e : Env W K) (name b : String) (p : Fin 3 → K) (he : e.sensors = [])
    (hx : e.excluded = []) : (e.addSensor ph name (.distTo b p)).2 = none ∧
      (e.addSensor ph name (.distTo b p)).1.getSensors = [0] := by
  simp [Env.addSensor, newSensor, Sensor.connect, SKind.isDist, Env.getSensors, he, hx]

/-- **C169, negation: stale distances.** After a reset the sensors of distances still report the distances in the state before the reset, not those in the state that the file describes. -/
theorem C169_negation_stale : ∃ (ph : Phys Int Int) (f : File Int) (ops : List (Op Int Int)),
    ((newEnv f 1 : Env Int Int).run ph (ops ++ [.step, .reset])).2 = none ∧
      ((newEnv f 1 : Env Int Int).run ph (ops ++ [.step, .reset])).1.getSensors ≠
        (added ops).flatMap fun p => reading ph f.root f.world p.2 :=
  ⟨odeClock, odeFile, [.addSensor "D" (.distTo "leg" 0)], by decide +kernel⟩

/-- **C169, negation: unknown bodies.** If no object has the given name, the documented behaviour is a warning and the distance 0. Instead every step fails with a TypeError; the world has then moved on but the step is not counted, and sensors that were added later still report the former state. -/
theorem C169_negation_unknown (ph : Phys W K) (e : Env W K) (s : Sensor K) (ss : List (Sensor K)) (b : String)
    (p : Fin 3 → K) (he : e.sensors = s :: ss) (hk : s.kind = .distTo b p) (hb : e.root.named b = none) :
    (e.step ph).2 = some .typeError ∧ (e.step ph).1.world = ph.step e.world e.forces ∧ (e.step ph).1.counter = e.counter ∧
      (e.step ph).1.sensors = e.sensors := by
  have hu : s.update ph e.root (ph.step e.world e.forces) = .error .typeError := by
    unfold Sensor.update
    rw [hk]
    simp [hb]
  simp [Env.step, he, updateAll, hu]

/-- **C169, negation: failed additions.** A sensor of joints by name fails with a TypeError if a name does not exist (the documented behaviour is a warning and the end of the program). The sensor is then in the list of the environment all the same. -/
theorem C169_negation_failed (ph : Phys W K) (e : Env W K) (name n : String) (ns : List String)
    (hn : e.root.named n = none) : (e.addSensor ph name (.someJoints (n :: ns))).2 = some .typeError ∧
      (e.addSensor ph name (.someJoints (n :: ns))).1.sensors.length = e.sensors.length + 1 := by
  simp [Env.addSensor, newSensor, Sensor.connect, SKind.isDist, Sensor.find, lookup, hn]

/-- **C169, negation: Python 3.** In Python 3 no file can be loaded. -/
theorem C169_negation_python3 (f : File W) : load true f = .error .typeError := rfl

example : load false odeFile = .ok (odeFile.root, odeFile.world) := rfl

end

end Verif.Props

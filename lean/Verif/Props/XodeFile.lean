import Verif.Props.XmlStruct
import Mathlib.Analysis.Real.Pi.Bounds

/-!
# C165: files of bodies and joints

The specification is the tag that a body, a joint or a floor is to be written as.
-/

namespace Verif.Xode

section
variable {K : Type} [Field K] [DecidableEq K]

/-- The dimensions of the known shapes. -/
def shapeAttrs (str : K → String) : String → List K → Option Attrs
  | "box", a :: b :: c :: _ => some [("sizex", str a), ("sizey", str b), ("sizez", str c)]
  | "cylinder", r :: l :: _ => some [("radius", str r), ("length", str l)]
  | "cappedCylinder", r :: l :: _ => some [("radius", str r), ("length", str l)]
  | "sphere", r :: _ => some [("radius", str r)]
  | _, _ => none

/-- The tag with three coordinates. -/
def xyz (str : K → String) (v : K × K × K) : Attrs :=
  [("x", str v.1), ("y", str v.2.1), ("z", str v.2.2)]

/-- The tag of a body: its position and rotation, its mass with the density, and its geometry. -/
def bodyTag (str : K → String) (b : Body K) (density : K) (ds : Attrs) : Tag :=
  .node "body" [("name", b.name)]
    [.node "transform" []
      (.leaf "position" (xyz str b.pos) ::
        match b.euler with
        | none => []
        | some e => [.node "rotation" [] [.leaf "euler" (xyz str e ++ [("aformat", "degrees")])]]),
     .node "mass" [] [.node "mass_shape" [("density", str density)] [.leaf b.shape ds]],
     .node "geom" [] [.leaf b.shape ds]]

/-- The density of a body: the given one, or the one that is computed from its mass. -/
def bodyDensity (b : Body K) : Option K :=
  match b.mass with
  | none => some b.density
  | some m => (mass2dens b.shape b.size m).toOption

/-- The tag of a joint: its name, the two bodies, and its type with its axis and anchor. -/
def jointTag (str : K → String) (j : Joint K) (parts : Option (List Tag)) : Option Tag :=
  parts.map fun ps =>
    .node "joint" [("name", j.jname)]
      [.leaf "link1" [("body", j.body1)], .leaf "link2" [("body", j.body2)], .node j.type [] ps]

/-- The tag `anchor`. -/
def anchorTag (str : K → String) (j : Joint K) : Tag :=
  .leaf "anchor" (xyz str j.anchor ++ [("absolute", if j.rel then "false" else "true")])

/-- The parts of the known types of joints. -/
def jointParts (str : K → String) (j : Joint K) : Option (List Tag) :=
  match j.type with
  | "fixed" => some []
  | "ball" => some [anchorTag str j]
  | "slider" => some [.leaf "axis" (j.axis.getD [])]
  | "hinge" => some [.leaf "axis" (j.axis.getD []), anchorTag str j]
  | _ => none

/-- What users insert. -/
inductive Item (K : Type) where
  | body (b : Body K)
  | joint (j : Joint K)
  | floor (y : K)

/-- The tag of an item, if its arguments are right. -/
def itemTag (str : K → String) : Item K → Option Tag
  | .body b => (shapeAttrs str b.shape b.size).bind fun ds =>
      (bodyDensity b).map fun d => bodyTag str b d ds
  | .joint j => jointTag str j (jointParts str j)
  | .floor y => some (.node "geom" [("name", "floor")]
      [.leaf "plane" [("a", str 0), ("b", str 1), ("c", str 0), ("d", str y)]])

/-- No attribute of the axis of a joint is called `myName`. -/
def Item.Plain : Item K → Prop
  | .joint j => ∀ p ∈ j.axis.getD [], p.1 ≠ "myName"
  | _ => True

/-- The insertion of an item. -/
def File.item (str : K → String) (f : File K) : Item K → Except Fault (File K)
  | .body b => insertBody str f b
  | .joint j => (insertJoint str f j).map Prod.snd
  | .floor y => .ok (insertFloor str f y)

theorem dims_eq (str : K → String) (shape : String) (size : List K) :
    (dims str shape size).toOption = shapeAttrs str shape size := by
  unfold dims
  split_ifs with h1 h2 h3
  · subst h1
    rcases size with _ | ⟨a, _ | ⟨b, _ | ⟨c, l⟩⟩⟩ <;> rfl
  · rcases h2 with rfl | rfl
    · rcases size with _ | ⟨a, _ | ⟨b, l⟩⟩ <;> rfl
    · rcases size with _ | ⟨a, _ | ⟨b, l⟩⟩ <;> rfl
  · subst h3
    rcases size with _ | ⟨a, l⟩ <;> rfl
  · unfold shapeAttrs
    split <;> simp_all
    rfl

theorem toOption_some {α : Type} {x : Except Fault α} {a : α} (h : x.toOption = some a) :
    x = .ok a := by
  cases x with
  | error e => simp [Except.toOption] at h
  | ok b => simp only [Except.toOption, Option.some.injEq] at h; rw [h]

theorem toOption_none {α : Type} {x : Except Fault α} (h : x.toOption = none) :
    ∃ e, x = .error e := by
  cases x with
  | error e => exact ⟨e, rfl⟩
  | ok b => simp [Except.toOption] at h

/-- The cursor after a subtag was appended to the current tag. -/
def Cursor.append (c : Cursor) (ts : List Tag) : Cursor :=
  { c with current := addSubs ts c.current }

/-- A file with a tag appended to the current one. -/
def File.addTag {K : Type} (f : File K) (t : Tag) : File K :=
  { f with cursor := f.cursor.append [t] }

theorem dims_plain (str : K → String) (shape : String) (size : List K) (ds : Attrs)
    (h : shapeAttrs str shape size = some ds) : (∀ p ∈ ds, p.1 ≠ "myName") ∧ ds ≠ [] := by
  unfold shapeAttrs at h
  split at h <;> simp only [Option.some.injEq, reduceCtorEq] at h
  all_goals subst h
  all_goals simp

theorem newTag_some (n : String) (a : Attrs) (h : ∀ p ∈ a, p.1 ≠ "myName") :
    newTag n (some a) = .leaf n a := by
  have h1 : a.lookup "myName" = none := by
    rw [List.lookup_eq_none_iff]
    intro p hp
    exact bne_iff_ne.2 (Ne.symm (h p hp))
  have h2 : (a.filter fun p => p.1 ≠ "myName") = a := by
    rw [List.filter_eq_self]
    intro p hp
    simpa using h p hp
  simp only [newTag, Option.getD_some, h1, h2, Option.getD_none]

theorem newTag_none (n : String) : newTag n none = .leaf n [] := rfl

theorem newTag_opt (n : String) (a : Option Attrs) (h : ∀ p ∈ a.getD [], p.1 ≠ "myName") :
    newTag n a = .leaf n (a.getD []) := by
  cases a with
  | none => rfl
  | some a => exact newTag_some n a h

theorem insertBody_ok (str : K → String) (f : File K) (b : Body K) (ds : Attrs) (d : K)
    (hds : shapeAttrs str b.shape b.size = some ds) (hd : bodyDensity b = some d) :
    ∃ f', insertBody str f b = .ok f' ∧
      f'.cursor = f.cursor.append [bodyTag str b d ds] ∧
      f'.passes = (b.passSet.getD []).foldl (passAdd b.name) f.passes ∧
      f'.colors = f.colors ++ (match b.color with | none => [] | some col => [(b.name, col)]) ∧
      f'.sensorElements = f.sensorElements ∧ f'.nSensorElements = f.nSensorElements := by
  have h1 : dims str b.shape b.size = .ok ds := toOption_some (by rw [dims_eq]; exact hds)
  have h2 : densityOf b = .ok d := by
    unfold bodyDensity at hd
    unfold densityOf
    cases hm : b.mass with
    | none => rw [hm] at hd; simp only [Option.some.injEq] at hd; rw [hd]
    | some m => rw [hm] at hd; exact toOption_some hd
  have hp := (dims_plain str _ _ _ hds).1
  simp only [insertBody, h1, h2, bind, Except.bind]
  refine ⟨_, rfl, ?_, rfl, ?_, rfl, rfl⟩
  · cases he : b.euler with
    | none =>
      simp [Cursor.insert, newTag_some _ _ hp, newTag_some, newTag_none, Cursor.insertTag,
        Cursor.up, Cursor.upOne, Cursor.append, addSubs, bodyTag, he, Tag.name, Tag.attrs, Tag.subs,
        xyz]
    | some e =>
      simp [Cursor.insert, newTag_some _ _ hp, newTag_some, newTag_none, Cursor.insertTag,
        Cursor.up, Cursor.upOne, Cursor.append, addSubs, bodyTag, he, Tag.name, Tag.attrs, Tag.subs,
        xyz]
  · cases b.color <;> simp

theorem insertBody_bad (str : K → String) (f : File K) (b : Body K)
    (h : shapeAttrs str b.shape b.size = none ∨ bodyDensity b = none) :
    ∃ e, insertBody str f b = .error e := by
  simp only [insertBody, bind, Except.bind]
  cases h1 : dims str b.shape b.size with
  | error e => exact ⟨e, rfl⟩
  | ok ds =>
    rcases h with h | h
    · have := dims_eq str b.shape b.size
      rw [h1, h] at this
      exact absurd this (by simp [Except.toOption])
    · unfold bodyDensity at h
      cases hm : b.mass with
      | none => rw [hm] at h; exact absurd h (by simp)
      | some m =>
        rw [hm] at h
        obtain ⟨e, he⟩ := toOption_none h
        have : densityOf b = .error e := by unfold densityOf; rw [hm]; exact he
        simp only [this]
        exact ⟨e, rfl⟩

theorem insertJoint_ok (str : K → String) (f : File K) (j : Joint K) (ps : List Tag)
    (hps : jointParts str j = some ps) (hpl : ∀ p ∈ j.axis.getD [], p.1 ≠ "myName") :
    insertJoint str f j = .ok (j.jname, f.addTag (.node "joint" [("name", j.jname)]
        [.leaf "link1" [("body", j.body1)], .leaf "link2" [("body", j.body2)],
          .node j.type [] ps])) := by
  unfold jointParts at hps
  split at hps <;> rename_i ht <;> simp only [Option.some.injEq, reduceCtorEq] at hps
  all_goals subst hps
  all_goals
    simp [insertJoint, insertType, File.addTag, ht, bind, Except.bind, Cursor.insert, newTag_opt _ _ hpl, newTag_some,
      newTag_none, Cursor.insertTag, Cursor.insertNone, Cursor.up, Cursor.upOne, Cursor.append,
      addSubs, Tag.name, Tag.attrs, Tag.subs, xyz, anchorTag, anchorAttrs]

theorem insertJoint_bad (str : K → String) (f : File K) (j : Joint K)
    (h : jointParts str j = none) : insertJoint str f j = .error .sysExit := by
  unfold jointParts at h
  split at h <;> simp only [reduceCtorEq] at h
  simp only [insertJoint, insertType, bind, Except.bind]
  rw [if_neg (by assumption), if_neg (by assumption), if_neg (by assumption),
    if_neg (by assumption)]

theorem item_ok (str : K → String) (f : File K) (it : Item K) (t : Tag)
    (h : itemTag str it = some t) (hp : it.Plain) :
    ∃ f', f.item str it = .ok f' ∧ f'.cursor = f.cursor.append [t] := by
  cases it with
  | body b =>
    simp only [itemTag, Option.bind_eq_some_iff, Option.map_eq_some_iff] at h
    obtain ⟨ds, h1, d, h2, rfl⟩ := h
    obtain ⟨f', h3, h4, _⟩ := insertBody_ok str f b ds d h1 h2
    exact ⟨f', h3, h4⟩
  | joint j =>
    simp only [itemTag, jointTag, Option.map_eq_some_iff] at h
    obtain ⟨ps, h1, rfl⟩ := h
    refine ⟨_, by simp only [File.item]; rw [insertJoint_ok str f j ps h1 hp]; rfl, rfl⟩
  | floor y =>
    simp only [itemTag, Option.some.injEq] at h
    subst h
    refine ⟨_, rfl, ?_⟩
    simp [insertFloor, Cursor.insert, newTag_some, Cursor.insertTag, Cursor.up, Cursor.upOne,
      Cursor.append, addSubs, Tag.name, Tag.attrs, Tag.subs]

theorem item_bad (str : K → String) (f : File K) (it : Item K) (h : itemTag str it = none) :
    ∃ e, f.item str it = .error e := by
  cases it with
  | body b =>
    simp only [itemTag, Option.bind_eq_none_iff, Option.map_eq_none_iff] at h
    apply insertBody_bad
    cases hs : shapeAttrs str b.shape b.size with
    | none => exact Or.inl rfl
    | some ds => exact Or.inr (h ds hs)
  | joint j =>
    simp only [itemTag, jointTag, Option.map_eq_none_iff] at h
    exact ⟨_, by simp only [File.item]; rw [insertJoint_bad str f j h]; rfl⟩
  | floor y => simp [itemTag] at h

theorem append_append (c : Cursor) (ts us : List Tag) :
    (c.append ts).append us = c.append (ts ++ us) := by
  simp [Cursor.append, addSubs, Tag.name, Tag.attrs, Tag.subs]

theorem items_ok (str : K → String) (its : List (Item K)) : ∀ (f : File K) (ts : List Tag),
    its.mapM (itemTag str) = some ts → (∀ it ∈ its, it.Plain) →
    ∃ f', its.foldlM (File.item str) f = .ok f' ∧
      (its ≠ [] → f'.cursor = f.cursor.append ts) ∧ (its = [] → f' = f) := by
  induction its with
  | nil => intro f ts _ _; exact ⟨f, rfl, by simp, by simp⟩
  | cons it its ih =>
    intro f ts h hp
    simp only [List.mapM_cons, Option.bind_eq_bind, Option.bind_eq_some_iff, Option.pure_def,
      Option.some.injEq] at h
    obtain ⟨t, h1, ts', h2, rfl⟩ := h
    obtain ⟨f1, h3, h4⟩ := item_ok str f it t h1 (hp it (by simp))
    obtain ⟨f2, h5, h6, h7⟩ := ih f1 ts' h2 (fun i hi => hp i (by simp [hi]))
    refine ⟨f2, ?_, ?_, by simp⟩
    · simp only [List.foldlM_cons, h3, bind, Except.bind]
      exact h5
    · intro _
      by_cases he : its = []
      · subst he
        simp only [List.mapM_nil, Option.pure_def, Option.some.injEq] at h2
        subst h2
        rw [h7 rfl, h4]
      · rw [h6 he, h4, append_append]
        rfl

theorem items_bad (str : K → String) (its : List (Item K)) : ∀ f : File K,
    its.mapM (itemTag str) = none → ∃ e, its.foldlM (File.item str) f = .error e := by
  induction its with
  | nil => intro f h; simp at h
  | cons it its ih =>
    intro f h
    simp only [List.foldlM_cons, bind, Except.bind]
    cases h1 : f.item str it with
    | error e => exact ⟨e, rfl⟩
    | ok f1 =>
      simp only [List.mapM_cons, Option.bind_eq_bind, Option.bind_eq_none_iff, Option.pure_def,
        reduceCtorEq, imp_false] at h
      cases ht : itemTag str it with
      | none =>
        obtain ⟨e, he⟩ := item_bad str f it ht
        rw [h1] at he
        exact absurd he (by simp)
      | some t =>
        apply ih
        have := h t ht
        cases hm : its.mapM (itemTag str) with
        | none => rfl
        | some ts => exact absurd hm (this ts)

theorem noBareAll_iff (ts : List Tag) : NoBareAll ts ↔ ∀ t ∈ ts, NoBare t := by
  induction ts with
  | nil => simp [NoBareAll]
  | cons t ts ih => simp [NoBareAll, ih]

/-- The joint has the axis that its type needs. -/
def Item.HasAxis : Item K → Prop
  | .joint j => j.type = "slider" ∨ j.type = "hinge" → j.axis.getD [] ≠ []
  | _ => True

theorem itemTag_noBare (str : K → String) (it : Item K) (t : Tag) (h : itemTag str it = some t) :
    NoBare t ↔ it.HasAxis := by
  cases it with
  | body b =>
    simp only [itemTag, Option.bind_eq_some_iff, Option.map_eq_some_iff] at h
    obtain ⟨ds, h1, d, h2, rfl⟩ := h
    have := (dims_plain str _ _ _ h1).2
    cases he : b.euler <;>
      simp [bodyTag, NoBare, NoBareAll, Item.HasAxis, this, xyz, he]
  | joint j =>
    simp only [itemTag, jointTag, Option.map_eq_some_iff] at h
    obtain ⟨ps, h1, rfl⟩ := h
    unfold jointParts at h1
    split at h1 <;> rename_i ht <;> simp only [Option.some.injEq, reduceCtorEq] at h1
    all_goals subst h1
    all_goals simp [NoBare, NoBareAll, Item.HasAxis, ht, anchorTag, xyz]
  | floor y =>
    simp only [itemTag, Option.some.injEq] at h
    subst h
    simp [NoBare, NoBareAll, Item.HasAxis]

theorem passAdd_mem (b : String) (p : String) : ∀ (ps : List (String × List String)) (q x : String),
    (∃ names, (passAdd b ps p).lookup q = some names ∧ x ∈ names) ↔
      ((∃ names, ps.lookup q = some names ∧ x ∈ names) ∨ (q = p ∧ x = b)) := by
  intro ps
  induction ps with
  | nil =>
    intro q x
    by_cases h : q = p
    · subst h; simp [passAdd]
    · simp [passAdd, List.lookup, h, beq_eq_false_iff_ne.2 h]
  | cons e ps ih =>
    intro q x
    obtain ⟨k, names⟩ := e
    rw [passAdd]
    by_cases h : k = p
    · subst h
      rw [if_pos rfl]
      by_cases hq : q = k
      · subst hq
        simp only [List.lookup_cons_self, Option.some.injEq, exists_eq_left', true_and]
        split_ifs with hm
        · constructor
          · exact Or.inl
          · rintro (h | rfl)
            · exact h
            · exact hm
        · simp
      · simp [List.lookup, beq_eq_false_iff_ne.2 hq, hq]
    · rw [if_neg h]
      by_cases hq : q = k
      · subst hq
        simp [h]
      · simp only [List.lookup, beq_eq_false_iff_ne.2 hq]
        exact ih q x

theorem passFold_mem (b : String) (qs : List String) : ∀ (ps : List (String × List String))
    (q x : String), (∃ names, (qs.foldl (passAdd b) ps).lookup q = some names ∧ x ∈ names) ↔
      ((∃ names, ps.lookup q = some names ∧ x ∈ names) ∨ (q ∈ qs ∧ x = b)) := by
  induction qs with
  | nil => intro ps q x; simp
  | cons p qs ih =>
    intro ps q x
    rw [List.foldl_cons, ih, passAdd_mem]
    simp only [List.mem_cons, or_assoc, or_and_right]

/-- A body is in a pass set. -/
def InPass (f : File K) (pset name : String) : Prop :=
  ∃ names, f.passes.lookup pset = some names ∧ name ∈ names

theorem item_pass (str : K → String) (f f' : File K) (it : Item K) (h : f.item str it = .ok f')
    (q x : String) :
    InPass f' q x ↔ (InPass f q x ∨ ∃ b : Body K, it = .body b ∧ b.name = x ∧ q ∈ b.passSet.getD []) := by
  cases it with
  | body b =>
    have hok : ∃ ds d, shapeAttrs str b.shape b.size = some ds ∧ bodyDensity b = some d := by
      cases hs : shapeAttrs str b.shape b.size with
      | none =>
        obtain ⟨e, he⟩ := insertBody_bad str f b (Or.inl hs)
        simp only [File.item] at h
        rw [he] at h
        exact absurd h (by simp)
      | some ds =>
        cases hd : bodyDensity b with
        | none =>
          obtain ⟨e, he⟩ := insertBody_bad str f b (Or.inr hd)
          simp only [File.item] at h
          rw [he] at h
          exact absurd h (by simp)
        | some d => exact ⟨ds, d, rfl, rfl⟩
    obtain ⟨ds, d, hs, hd⟩ := hok
    obtain ⟨f1, h1, _, h2, _⟩ := insertBody_ok str f b ds d hs hd
    simp only [File.item] at h
    rw [h1] at h
    simp only [Except.ok.injEq] at h
    subst h
    unfold InPass
    rw [h2, passFold_mem]
    simp only [Item.body.injEq, exists_eq_left']
    constructor
    · rintro (h | ⟨h, rfl⟩)
      · exact Or.inl h
      · exact Or.inr ⟨rfl, h⟩
    · rintro (h | ⟨rfl, h⟩)
      · exact Or.inl h
      · exact Or.inr ⟨h, rfl⟩
  | joint j =>
    have : f'.passes = f.passes := by
      simp only [File.item, insertJoint, bind, Except.bind] at h
      split at h
      · simp [Except.map] at h
      · simp only [Except.map, Except.ok.injEq] at h
        subst h
        rfl
    simp [InPass, this]
  | floor y =>
    simp only [File.item, Except.ok.injEq] at h
    subst h
    simp [InPass, insertFloor]

theorem items_pass (str : K → String) (its : List (Item K)) : ∀ (f f' : File K),
    its.foldlM (File.item str) f = .ok f' → ∀ q x : String,
    (InPass f' q x ↔ (InPass f q x ∨
      ∃ b : Body K, Item.body b ∈ its ∧ b.name = x ∧ q ∈ b.passSet.getD [])) := by
  induction its with
  | nil =>
    intro f f' h q x
    simp only [List.foldlM_nil, pure, Except.pure, Except.ok.injEq] at h
    subst h
    simp
  | cons it its ih =>
    intro f f' h q x
    simp only [List.foldlM_cons, bind, Except.bind] at h
    cases h1 : f.item str it with
    | error e => rw [h1] at h; exact absurd h (by simp)
    | ok f1 =>
      rw [h1] at h
      rw [ih f1 f' h, item_pass str f f1 it h1, or_assoc]
      simp only [List.mem_cons]
      constructor
      · rintro (h | ⟨b, rfl, h⟩ | ⟨b, h⟩)
        · exact Or.inl h
        · exact Or.inr ⟨b, Or.inl rfl, h⟩
        · exact Or.inr ⟨b, Or.inr h.1, h.2⟩
      · rintro (h | ⟨b, h1 | h1, h⟩)
        · exact Or.inl h
        · exact Or.inr (Or.inl ⟨b, h1.symm, h⟩)
        · exact Or.inr (Or.inr ⟨b, h1, h⟩)

theorem mapM_mem (str : K → String) : ∀ (its : List (Item K)) (ts : List Tag),
    its.mapM (itemTag str) = some ts → ∀ t ∈ ts, ∃ it ∈ its, itemTag str it = some t := by
  intro its
  induction its with
  | nil =>
    intro ts h t ht
    simp only [List.mapM_nil, Option.pure_def, Option.some.injEq] at h
    subst h
    simp at ht
  | cons it its ih =>
    intro ts h t ht
    simp only [List.mapM_cons, Option.bind_eq_bind, Option.bind_eq_some_iff, Option.pure_def,
      Option.some.injEq] at h
    obtain ⟨t1, h1, ts', h2, rfl⟩ := h
    rcases List.mem_cons.1 ht with rfl | ht
    · exact ⟨it, by simp, h1⟩
    · obtain ⟨i, hi, h3⟩ := ih ts' h2 t ht
      exact ⟨i, by simp [hi], h3⟩

theorem mapM_mem' (str : K → String) : ∀ (its : List (Item K)) (ts : List Tag),
    its.mapM (itemTag str) = some ts → ∀ it ∈ its, ∃ t ∈ ts, itemTag str it = some t := by
  intro its
  induction its with
  | nil => intro ts _ it hit; simp at hit
  | cons i its ih =>
    intro ts h it hit
    simp only [List.mapM_cons, Option.bind_eq_bind, Option.bind_eq_some_iff, Option.pure_def,
      Option.some.injEq] at h
    obtain ⟨t1, h1, ts', h2, rfl⟩ := h
    rcases List.mem_cons.1 hit with rfl | hit
    · exact ⟨t1, by simp, h1⟩
    · obtain ⟨t, ht, h3⟩ := ih ts' h2 it hit
      exact ⟨t, by simp [ht], h3⟩

end

end Verif.Xode

namespace Verif.Props

open Verif.Xode

section
variable {K : Type} [Field K] [DecidableEq K]

/-- **C165 (files of bodies and joints).**  After any sequence of insertions of bodies, joints and
floors into a new file, the world contains one space, which contains exactly the tags of the items,
in their order.  If the arguments of an item are wrong, the sequence fails. -/
theorem C165_file (str : K → String) (its : List (Item K)) (hp : ∀ it ∈ its, it.Plain) :
    (∀ ts, its.mapM (itemTag str) = some ts → its ≠ [] →
      ∃ f, its.foldlM (File.item str) (newFile K) = .ok f ∧
        f.cursor.root = .node "world" [] [.node "space" [] ts] ∧
        f.cursor.current = .node "space" [] ts) ∧
    (its.mapM (itemTag str) = none →
      ∃ e, its.foldlM (File.item str) (newFile K) = .error e) := by
  constructor
  · intro ts h hne
    obtain ⟨f, h1, h2, _⟩ := items_ok str its (newFile K) ts h hp
    refine ⟨f, h1, ?_, ?_⟩
    · rw [root_eq, h2 hne]
      simp [newFile, newStruct, Cursor.insert, newTag_none, Cursor.insertTag, Cursor.append, plug,
        addSubs, Tag.name, Tag.attrs, Tag.subs]
    · rw [h2 hne]
      simp [newFile, newStruct, Cursor.insert, newTag_none, Cursor.insertTag, Cursor.append,
        addSubs, Tag.name, Tag.attrs, Tag.subs]
  · exact items_bad str its (newFile K)

/-- Two bodies, a joint and a floor. -/
def c165Items : List (Item ℚ) :=
  [.body { name := "a", shape := "box", size := [1, 2, 3], density := 5, pos := (0, 0, 0), passSet := some ["p"], mass := some 12 },
   .body { name := "b", shape := "sphere", size := [1], density := 5, pos := (0, 4, 0), euler := some (0, 90, 0) },
   .joint { body1 := "a", body2 := "b", type := "hinge", axis := some [("x", "1")], anchor := (0, 0, 0) },
   .floor (-1)]

example : (c165Items.mapM (itemTag fun _ => "0")).isSome ∧ (∀ it ∈ c165Items, it.Plain) ∧
    (∀ it ∈ c165Items, it.HasAxis) := by
  refine ⟨by decide +kernel, ?_, ?_⟩ <;> simp [c165Items, Item.Plain, Item.HasAxis]

example : ((c165Items.foldlM (File.item fun _ => "0") (newFile ℚ)).toOption.map fun f =>
    (f.passes, f.cursor.root.subs.map fun t => t.subs.map Tag.name)) =
      some ([("p", ["a"])], [["body", "body", "joint", "geom"]]) := by decide +kernel

/-- **C165 (pass sets).**  A body is in a pass set exactly if a body of this name was inserted with
this set. -/
theorem C165_passes (str : K → String) (its : List (Item K)) (f : File K)
    (h : its.foldlM (File.item str) (newFile K) = .ok f) (pset name : String) :
    (∃ names, f.passes.lookup pset = some names ∧ name ∈ names) ↔
      ∃ b : Body K, Item.body b ∈ its ∧ b.name = name ∧ pset ∈ b.passSet.getD [] := by
  have := items_pass str its (newFile K) f h pset name
  simpa [InPass, newFile] using this

/-- **C165 (well-formed files).**  If at least one item was inserted and every slider and hinge has
an axis, the file is read as the same structure. -/
theorem C165_readable (str : K → String) (its : List (Item K)) (f : File K)
    (hp : ∀ it ∈ its, it.Plain) (hne : its ≠ []) (ha : ∀ it ∈ its, it.HasAxis)
    (h : its.foldlM (File.item str) (newFile K) = .ok f) :
    ∃ ps : List (Nat × Piece), write f.cursor.root 0 = ps.map lineOf ∧
      reader (ps.map Prod.snd) [] [] = some [f.cursor.root] := by
  cases hts : its.mapM (itemTag str) with
  | none =>
    obtain ⟨e, he⟩ := (C165_file str its hp).2 hts
    rw [h] at he
    exact absurd he (by simp)
  | some ts =>
    obtain ⟨f', h1, h2, _⟩ := (C165_file str its hp).1 ts hts hne
    rw [h] at h1
    simp only [Except.ok.injEq] at h1
    subst h1
    apply C164_write
    rw [h2]
    simp only [NoBare, NoBareAll, and_true]
    rw [noBareAll_iff]
    intro t ht
    obtain ⟨it, hit, h3⟩ := mapM_mem str its ts hts t ht
    exact (itemTag_noBare str it t h3).2 (ha it hit)

/-- **C165 (well-formed files), false with the default axis.**  A slider or hinge without an axis
makes the file unreadable. -/
theorem C165_negation_axis (str : K → String) (its : List (Item K)) (f : File K)
    (hp : ∀ it ∈ its, it.Plain) (it : Item K) (hit : it ∈ its) (ha : ¬ it.HasAxis)
    (h : its.foldlM (File.item str) (newFile K) = .ok f) :
    ∃ ps : List (Nat × Piece), write f.cursor.root 0 = ps.map lineOf ∧
      reader (ps.map Prod.snd) [] [] = none := by
  have hne : its ≠ [] := List.ne_nil_of_mem hit
  cases hts : its.mapM (itemTag str) with
  | none =>
    obtain ⟨e, he⟩ := (C165_file str its hp).2 hts
    rw [h] at he
    exact absurd he (by simp)
  | some ts =>
    obtain ⟨f', h1, h2, _⟩ := (C165_file str its hp).1 ts hts hne
    rw [h] at h1
    simp only [Except.ok.injEq] at h1
    subst h1
    apply C164_negation_bare
    rw [h2]
    simp only [NoBare, NoBareAll, and_true]
    rw [noBareAll_iff]
    intro hall
    obtain ⟨t, ht, h3⟩ := mapM_mem' str its ts hts it hit
    exact ha ((itemTag_noBare str it t h3).1 (hall t ht))

example : ¬ (Item.joint { body1 := "a", body2 := "b", type := "slider", anchor := (0, 0, 0) } :
    Item ℚ).HasAxis := by simp [Item.HasAxis]

/-- **C165 (mass and density).**  Computing the density from a mass and the mass from the density
are inverse to each other for every shape whose volume is not zero. -/
theorem C165_density (shape : String) (size : List K) (v : K) (hv : volume shape size = .ok v)
    (h0 : v ≠ 0) (m d : K) :
    (mass2dens shape size m = .ok (m / v) ∧ dens2mass shape size (m / v) = .ok m) ∧
      (dens2mass shape size d = .ok (d * v) ∧ mass2dens shape size (d * v) = .ok d) := by
  have hm : ∀ x : K, mass2dens shape size x = .ok (x / v) := fun x => by
    simp only [mass2dens, hv, bind, Except.bind, if_neg h0]
  have hd : ∀ x : K, dens2mass shape size x = .ok (x * v) := fun x => by
    simp only [dens2mass, hv, bind, Except.bind]
  refine ⟨⟨hm m, ?_⟩, hd d, ?_⟩
  · rw [hd, div_mul_cancel₀ m h0]
  · rw [hm, mul_div_cancel_right₀ d h0]

example : volume "cylinder" [(1 : ℚ), 2] = .ok (12.56637061 * 1 * 1 * 2) ∧
    (12.56637061 * 1 * 1 * 2 : ℚ) ≠ 0 := by
  refine ⟨by simp [volume, at?, bind, Except.bind], by norm_num⟩

/-- **C165 (merging), false.**  Merging two files always raises an `AttributeError`. -/
theorem C165_negation_merge (f g : File K) (level : String) :
    merge f g level = .error .attributeError := rfl

/-- **C165 (writing the file), false.**  `writeXODE` opens the file for bytes and writes text: it
raises a `TypeError` for every structure and leaves an empty file. -/
theorem C165_negation_write (f : File K) : writeXODE f = ([], .error .typeError) := rfl

end

/-- **C165 (mass of boxes and spheres).**  The volume of a box is exact, the one of a sphere up to
a relative error of `10 ^ (-8)`. -/
theorem C165_volume (a b c r : ℝ) (hr : 0 ≤ r) :
    volume "box" [a, b, c] = .ok (a * b * c) ∧
      ∃ v, volume "sphere" [r] = .ok v ∧
        |v - 4 / 3 * Real.pi * r ^ 3| ≤ 1e-8 * (4 / 3 * Real.pi * r ^ 3) := by
  refine ⟨by simp [volume, at?, bind, Except.bind], 4.18879020 * r ^ 3, ?_, ?_⟩
  · simp [volume, at?, bind, Except.bind]
  · have h1 := Real.pi_gt_d20
    have h2 := Real.pi_lt_d20
    have h3 : 0 ≤ r ^ 3 := pow_nonneg hr 3
    rw [abs_le]
    constructor <;> nlinarith

/-- **C165 (mass of cylinders), false.**  The factor of the volume of a cylinder is four times too
large: the density that is computed for a given mass gives the body about a quarter of it. -/
theorem C165_negation_cylinder (r l m : ℝ) (hr : 0 < r) (hl : 0 < l) (hm : 0 < m) :
    ∃ d, (open Classical in mass2dens "cylinder" [r, l] m) = .ok d ∧
      d * (Real.pi * r ^ 2 * l) < 0.26 * m := by
  have h1 := Real.pi_lt_d2
  refine ⟨m / (12.56637061 * r * r * l), ?_, ?_⟩
  · have h0 : (12.56637061 * r * r * l : ℝ) ≠ 0 := by positivity
    simp only [mass2dens, volume, at?, bind, Except.bind]
    simp [hr.ne', hl.ne']
    norm_num
  · have : m / (12.56637061 * r * r * l) * (Real.pi * r ^ 2 * l) = m * (Real.pi / 12.56637061) := by
      field_simp
    rw [this]
    have h2 : Real.pi / 12.56637061 < 0.26 := by
      rw [div_lt_iff₀ (by norm_num)]
      linarith
    nlinarith

example : (0 : ℝ) < 1 ∧ (0 : ℝ) < 2 := by norm_num

/-- **C165 (pressure sensors).**  The damping of a sensor with a positive mass and stiffness is the
one of the aperiodic limit case of a spring that is two percent stronger; the parameters are those
of a spring with this damping at the time step of 0.02; the sliding axis has length one. -/
theorem C165_sensor (mass stiff : ℝ) (hm : 0 < mass) (hs : 0 < stiff) (euler : ℝ × ℝ × ℝ) :
    stiff = 1.02 * damping mass stiff ^ 2 / (4 * mass) ∧
      (springParams mass stiff).1 = 0.02 * stiff / (0.02 * stiff + damping mass stiff) ∧
      (springParams mass stiff).2 = 1 / (0.02 * stiff + damping mass stiff) ∧
      0 < (springParams mass stiff).1 ∧ (springParams mass stiff).1 < 1 ∧
      (slidingAxis euler).1 ^ 2 + (slidingAxis euler).2.1 ^ 2 + (slidingAxis euler).2.2 ^ 2 = 1 ∧
      slidingAxis (0, 0, 0) = (0, 0, 1) := by
  have hd : 0 < damping mass stiff := by unfold damping; positivity
  have hsq : Real.sqrt (mass * stiff / 1.02) ^ 2 = mass * stiff / 1.02 :=
    Real.sq_sqrt (by positivity)
  refine ⟨?_, rfl, ?_, ?_, ?_, ?_, ?_⟩
  · have : damping mass stiff ^ 2 = 4 * (mass * stiff / 1.02) := by
      unfold damping
      rw [mul_pow, hsq]
      norm_num
    rw [this]
    field_simp
  · simp only [springParams]
    field_simp
  · simp only [springParams]
    positivity
  · simp only [springParams]
    rw [div_lt_one (by positivity)]
    linarith
  · simp only [slidingAxis, mulVec]
    have h1 := Real.sin_sq_add_cos_sq (euler.2.1 * Real.pi / 180)
    have h2 := Real.sin_sq_add_cos_sq (euler.2.2 * Real.pi / 180)
    set s1 := Real.sin (euler.2.1 * Real.pi / 180)
    set c1 := Real.cos (euler.2.1 * Real.pi / 180)
    set s2 := Real.sin (euler.2.2 * Real.pi / 180)
    set c2 := Real.cos (euler.2.2 * Real.pi / 180)
    ring_nf
    nlinarith [h1, h2]
  · simp [slidingAxis, mulVec]

open Classical in
/-- **C165 (sensor elements).**  A sensor element adds a body and a slider between it and its parent
to the current tag.  The mass and the density used agree with each other and with the given one; the
name is the given one or made from the number of elements so far; the joint is added to the list of
sensor elements. -/
theorem C165_element (str : ℝ → String) (f : File ℝ) (e : Element) (v : ℝ) (ds : Attrs)
    (hv : volume e.shape e.size = .ok v) (h0 : v ≠ 0)
    (hds : shapeAttrs str e.shape e.size = some ds) :
    ∃ name f' m d, insertElement str f e = .ok (name, f') ∧
      name = e.name.getD ("psens" ++ toString f.nSensorElements) ∧
      m = d * v ∧ (e.mass = none → d = e.dens) ∧ (∀ m', e.mass = some m' → m = m') ∧
      (∃ b : Body ℝ, b.name = name ∧ b.shape = e.shape ∧ b.pos = e.pos ∧ b.euler = some e.euler ∧
        ∃ axis : Attrs,
          axis = xyz str (slidingAxis e.euler) ++ [("HiStop", str 0), ("LowStop", str 0),
            ("StopERP", str (springParams m e.stiff).1),
            ("StopCFM", str (springParams m e.stiff).2)] ∧
        f'.cursor = f.cursor.append
          [bodyTag str b d ds,
           .node "joint" [("name", name ++ "_" ++ e.parent)]
             [.leaf "link1" [("body", name)], .leaf "link2" [("body", e.parent)],
              .node "slider" [] [.leaf "axis" axis]]]) ∧
      f'.sensorElements = f.sensorElements ++ [name ++ "_" ++ e.parent] ∧
      f'.nSensorElements = f.nSensorElements + 1 ∧
      ∀ pset x : String, InPass f' pset x ↔ (InPass f pset x ∨ (pset ∈ e.passSet ∧ x = name)) := by
  set name := e.name.getD ("psens" ++ toString f.nSensorElements) with hname
  have hmd : ∃ m d, massDens e = .ok (m, d) ∧
      m = d * v ∧ (e.mass = none → d = e.dens) ∧ (∀ m', e.mass = some m' → m = m') := by
    unfold massDens
    cases hm : e.mass with
    | none =>
      exact ⟨e.dens * v, e.dens, by simp [dens2mass, hv, bind, Except.bind, Except.map], rfl,
        fun _ => rfl, by simp⟩
    | some m =>
      refine ⟨m, m / v, by simp [mass2dens, hv, bind, Except.bind, Except.map, h0], ?_, by simp, ?_⟩
      · rw [div_mul_cancel₀ m h0]
      · intro m' h; exact Option.some.inj h
  obtain ⟨m, d, h1, h2, h3, h4⟩ := hmd
  let b : Body ℝ := { name := name, shape := e.shape, size := e.size, density := d, pos := e.pos, euler := some e.euler, passSet := some e.passSet }
  obtain ⟨f1, h5, h6, h10, _, h7, h8⟩ := insertBody_ok str
    { f with nSensorElements := f.nSensorElements + 1 } b ds d hds rfl
  let j : Joint ℝ := { body1 := name, body2 := e.parent, type := "slider", anchor := (0, 0, 0), axis := some (xyz str (slidingAxis e.euler) ++ [("HiStop", str 0), ("LowStop", str 0), ("StopERP", str (springParams m e.stiff).1), ("StopCFM", str (springParams m e.stiff).2)]) }
  have h9 := insertJoint_ok str f1 j _ rfl (by simp [j, xyz])
  let f' : File ℝ :=
    { f1.addTag (.node "joint" [("name", j.jname)]
        [.leaf "link1" [("body", j.body1)], .leaf "link2" [("body", j.body2)],
          .node j.type [] [.leaf "axis" (j.axis.getD [])]]) with
      sensorElements := f1.sensorElements ++ [j.jname] }
  refine ⟨name, f', m, d, ?_, rfl, h2, h3, h4, ⟨b, rfl, rfl, rfl, rfl, _, rfl, ?_⟩, ?_, ?_, ?_⟩
  · unfold insertElement
    simp only [← hname]
    rw [h1]
    simp only [bind, Except.bind]
    have h5' := h5
    simp only [b] at h5'
    rw [h5']
    dsimp only
    have h9' := h9
    simp only [j, xyz, List.cons_append, List.nil_append] at h9'
    rw [h9']
    rfl
  · simp only [f', File.addTag, h6, append_append]
    rfl
  · simp only [f', h7]
    rfl
  · simp only [f', File.addTag, h8]
  · intro pset x
    simp only [InPass, f', File.addTag, h10]
    exact passFold_mem name e.passSet f.passes pset x

example : ∃ v : ℝ, volume "cappedCylinder" [(0.16 : ℝ), 0.5] = .ok v ∧ v ≠ 0 := by
  refine ⟨_, by simp only [volume, at?, bind, Except.bind]; simp; rfl, by norm_num⟩

end Verif.Props

import Verif.Model.OdeConfig
import Mathlib.Data.List.TakeWhile

/-!
# C171: parameters of XODE files and objects that pass each other
-/

namespace Verif.OdeConfig

/-! ### Specification -/

/-- A section of a file: its name and its values. -/
abbrev Section := Text × List Text

/-- The lines of sections in a file. -/
def sectionLines (g : Grabber) (ss : List Section) : List Text :=
  ss.flatMap fun s => tagLine g s.1 :: s.2.map ln

/-- The values under a name: those of all sections with this name. -/
def valuesOf (ss : List Section) (name : Text) : List Text :=
  ss.flatMap fun s => if s.1 = name then s.2.map strip else []

/-- A value can be read back: it does not begin like a tag. -/
def Plain (g : Grabber) (v : Text) : Prop := v.head? ≠ some g.opening

/-! ### Lemmas -/

theorem isWs_newline : isWs '\n' = true := by decide

theorem strip_ln (v : Text) : strip (ln v) = strip v := by
  unfold strip ln
  by_cases h : ∀ c ∈ v, isWs c = true
  · have h1 : v.dropWhile isWs = [] := List.dropWhile_eq_nil_iff.2 h
    have h2 : (v ++ ['\n']).dropWhile isWs = [] := by
      rw [List.dropWhile_eq_nil_iff]
      intro c hc
      rcases List.mem_append.1 hc with hc | hc
      · exact h c hc
      · rw [List.mem_singleton.1 hc]; exact isWs_newline
    rw [h1, h2]
  · have h3 : (v ++ ['\n']).dropWhile isWs = v.dropWhile isWs ++ ['\n'] := by
      rw [List.dropWhile_append]
      have : (v.dropWhile isWs).isEmpty = false := by
        rw [Bool.eq_false_iff]
        intro he
        apply h
        rw [List.isEmpty_iff] at he
        exact List.dropWhile_eq_nil_iff.1 he
      rw [this]
      rfl
    rw [h3, List.reverse_append]
    simp [isWs_newline]

theorem head_ln (v : Text) (g : Grabber) (hv : Plain g v) (hg : g.opening ≠ '\n') : (ln v).head? ≠ some g.opening := by
  cases v with
  | nil => simpa [ln] using fun h => hg h.symm
  | cons c cs => simpa [ln, Plain] using hv

theorem enter_skip (g : Grabber) (l : Text) : enter g .skip l = .skip := by simp [enter]

theorem enter_take (g : Grabber) (l : Text) : enter g .take l = .take := by simp [enter]

theorem scan_values_take (g : Grabber) (name : Text) (hg : g.opening ≠ '\n') : ∀ (vs : List Text) (rest : List Text),
    (∀ v ∈ vs, Plain g v) → scan g name .take (vs.map ln ++ rest) = vs.map strip ++ scan g name .take rest
  | [], rest, _ => rfl
  | v :: vs, rest, h => by
    rw [List.map_cons, List.cons_append, scan, enter_take]
    simp only
    rw [if_pos (head_ln v g (h v List.mem_cons_self) hg), scan_values_take g name hg vs rest fun x hx => h x (List.mem_cons_of_mem _ hx),
      strip_ln]
    rfl

theorem scan_values_skip (g : Grabber) (name : Text) (hg : g.opening ≠ '\n') : ∀ (vs : List Text) (rest : List Text),
    (∀ v ∈ vs, Plain g v) → scan g name .skip (vs.map ln ++ rest) = scan g name .skip rest
  | [], rest, _ => rfl
  | v :: vs, rest, h => by
    rw [List.map_cons, List.cons_append, scan, enter_skip]
    simp only
    rw [if_pos (head_ln v g (h v List.mem_cons_self) hg), scan_values_skip g name hg vs rest fun x hx => h x (List.mem_cons_of_mem _ hx)]

theorem tagLine_inj (g : Grabber) (a b : Text) : tagLine g a = tagLine g b ↔ a = b := by
  simp [tagLine]

theorem scan_tag (g : Grabber) (name n : Text) (f : Flag) (hf : f ≠ .before) (rest : List Text) :
    scan g name f (tagLine g n :: rest) = scan g name (if n = name then .take else .skip) rest := by
  have hh : (tagLine g n).head? = some g.opening := rfl
  cases f with
  | before => exact absurd rfl hf
  | skip =>
    rw [scan, enter_skip]
    simp only [hh, ne_eq, not_true_eq_false, if_false, tagLine_inj]
  | take =>
    rw [scan, enter_take]
    simp only [hh, ne_eq, not_true_eq_false, if_false, tagLine_inj]

theorem scan_sections (g : Grabber) (name : Text) (hg : g.opening ≠ '\n') : ∀ (ss : List Section) (f : Flag),
    f ≠ .before → (∀ s ∈ ss, ∀ v ∈ s.2, Plain g v) → scan g name f (sectionLines g ss) = valuesOf ss name
  | [], f, _, _ => by cases f <;> rfl
  | s :: ss, f, hf, h => by
    rw [sectionLines, List.flatMap_cons, ← sectionLines, List.cons_append, scan_tag g name _ f hf]
    have hv := h s List.mem_cons_self
    have hr : ∀ t ∈ ss, ∀ v ∈ t.2, Plain g v := fun t ht => h t (List.mem_cons_of_mem _ ht)
    rw [valuesOf, List.flatMap_cons, ← valuesOf]
    by_cases hn : s.1 = name
    · rw [if_pos hn, if_pos hn, scan_values_take g name hg _ _ hv, scan_sections g name hg ss .take (by simp) hr]
    · rw [if_neg hn, if_neg hn, scan_values_skip g name hg _ _ hv, scan_sections g name hg ss .skip (by simp) hr, List.nil_append]

theorem scan_before (g : Grabber) (name : Text) : ∀ (pre rest : List Text), (∀ l ∈ pre, strip l ≠ g.sectionId) →
    scan g name .before (pre ++ rest) = scan g name .before rest
  | [], _, _ => rfl
  | l :: pre, rest, h => by
    rw [List.cons_append, scan]
    have : enter g .before l = .before := by simp [enter, h l List.mem_cons_self]
    rw [this]
    exact scan_before g name pre rest fun x hx => h x (List.mem_cons_of_mem _ hx)

theorem scan_enter (g : Grabber) (name l : Text) (rest : List Text) (hl : strip l = g.sectionId) (hn : l ≠ tagLine g name) :
    scan g name .before (l :: rest) = scan g name .skip rest := by
  rw [scan]
  have : enter g .before l = .skip := by simp [enter, hl]
  rw [this]
  simp only
  rw [if_neg hn]
  split <;> rfl

theorem matches2_eq (n1 n2 : Text) : ∀ (p : List Text) (g : Bool × Bool),
    ((matches2 n1 n2 g p).1 = true ↔ g.1 = true ∨ ∃ x ∈ p, x <:+: n1) ∧
      ((matches2 n1 n2 g p).2 = true ↔ g.2 = true ∨ ∃ x ∈ p, x <:+: n2)
  | [], g => by simp [matches2]
  | x :: xs, g => by
    rw [matches2]
    obtain ⟨h1, h2⟩ := matches2_eq n1 n2 xs (g.1 || decide (x <:+: n1), g.2 || decide (x <:+: n2))
    rw [h1, h2]
    simp [or_assoc]

theorem passing_iff (n1 n2 : Text) (ps : List (List Text)) :
    passing n1 n2 ps = true ↔ ∃ p ∈ ps, (∃ x ∈ p, x <:+: n1) ∧ ∃ y ∈ p, y <:+: n2 := by
  induction ps with
  | nil => simp [passing]
  | cons p ps ih =>
    obtain ⟨h1, h2⟩ := matches2_eq n1 n2 p (false, false)
    rw [passing]
    simp only [Bool.false_eq_true, false_or] at h1 h2
    by_cases hp : (matches2 n1 n2 (false, false) p).1 = true ∧ (matches2 n1 n2 (false, false) p).2 = true
    · simp only [hp.1, hp.2, Bool.and_self, if_true, List.mem_cons, true_iff]
      exact ⟨p, Or.inl rfl, h1.1 hp.1, h2.1 hp.2⟩
    · have hf : ((matches2 n1 n2 (false, false) p).1 && (matches2 n1 n2 (false, false) p).2) = false := by
        rw [Bool.eq_false_iff]
        intro h
        exact hp (by simpa using h)
      simp only [hf, Bool.false_eq_true, if_false]
      rw [ih]
      constructor
      · rintro ⟨q, hq, h⟩
        exact ⟨q, List.mem_cons_of_mem _ hq, h⟩
      · rintro ⟨q, hq, h⟩
        rcases List.mem_cons.1 hq with rfl | hq
        · exact absurd ⟨h1.2 h.1, h2.2 h.2⟩ hp
        · exact ⟨q, hq, h⟩

/-- The section of an optional value. -/
def optSection (name : Text) : Option Text → List Section
  | some t => [(name, [t])]
  | none => []

/-- The section of a list of values. -/
def listSection (name : Text) (vs : List Text) : List Section := if vs.length > 0 then [(name, vs)] else []

/-- The section of the sensors; it is only opened for the command of the sensor elements. -/
def Params.sections (p : Params) (t : Text) : List Section :=
  listSection "passpairs".toList p.pass ++ optSection "centerOn".toList p.centerOn ++
    optSection "affixToEnvironment".toList p.affix ++ [("sensors".toList, t :: p.sensors)] ++
    listSection "colors".toList p.colors ++ [("end".toList, ["-->".toList])]

theorem envGrabber_eq : envGrabber = ⟨"<!--odeenvironment parameters".toList, '<', '>'⟩ := by decide +kernel

/-- The text of a tag. -/
def tagText (name : Text) : Text := '<' :: name ++ ['>']

theorem lines_list (name : Text) (vs : List Text) :
    sectionLines envGrabber (listSection name vs) = if vs.length > 0 then (ln (tagText name)) :: vs.map ln else [] := by
  unfold listSection
  split
  · rw [envGrabber_eq]; simp [sectionLines, tagLine, ln, tagText]
  · rfl

theorem lines_opt (name : Text) (o : Option Text) :
    sectionLines envGrabber (optSection name o) = match o with
      | some t => [ln (tagText name), ln t]
      | none => [] := by
  cases o with
  | none => rfl
  | some t => rw [envGrabber_eq]; simp [optSection, sectionLines, tagLine, ln, tagText]

theorem sectionLines_append (g : Grabber) (a b : List Section) : sectionLines g (a ++ b) = sectionLines g a ++ sectionLines g b := by
  simp [sectionLines]

theorem write_eq (p : Params) (t : Text) (ht : p.elements = some t) :
    p.write = ln "<!--odeenvironment parameters".toList :: sectionLines envGrabber (p.sections t) := by
  have e1 : ("<passpairs>".toList : Text) = tagText "passpairs".toList := by decide
  have e2 : ("<centerOn>".toList : Text) = tagText "centerOn".toList := by decide
  have e3 : ("<affixToEnvironment>".toList : Text) = tagText "affixToEnvironment".toList := by decide
  have e4 : ("<sensors>".toList : Text) = tagText "sensors".toList := by decide
  have e5 : ("<colors>".toList : Text) = tagText "colors".toList := by decide
  have e6 : ("<end>".toList : Text) = tagText "end".toList := by decide
  have s1 : sectionLines envGrabber [("sensors".toList, t :: p.sensors)] = ln (tagText "sensors".toList) :: ln t :: p.sensors.map ln := by
    rw [envGrabber_eq]; simp [sectionLines, tagLine, ln, tagText]
  have s2 : sectionLines envGrabber [("end".toList, ["-->".toList])] = [ln (tagText "end".toList), ln "-->".toList] := by
    rw [envGrabber_eq]; simp [sectionLines, tagLine, ln, tagText]
  unfold Params.write Params.sections
  simp only [sectionLines_append, lines_list, lines_opt, s1, s2, e1, e2, e3, e4, e5, e6, ht]
  simp only [List.append_assoc, List.cons_append, List.nil_append]
  cases p.centerOn <;> cases p.affix <;> rfl

end Verif.OdeConfig

namespace Verif.Props

open Verif.OdeConfig

/-- **C171, sections of a file.** Suppose a file has some lines, then the line with the name of the parameter block, and then sections: lines with tags, each followed by lines with values that do not begin like a tag. Asking for a name then gives exactly the values of the sections with this name, in order and without surrounding whitespace. -/
theorem C171_sections (g : Grabber) (hg : g.opening ≠ '\n') (hid : g.sectionId ≠ []) (pre : List Text) (l : Text) (ss : List Section) (name : Text)
    (hpre : ∀ x ∈ pre, strip x ≠ g.sectionId) (hl : strip l = g.sectionId) (hn : l ≠ tagLine g name)
    (hv : ∀ s ∈ ss, ∀ v ∈ s.2, Plain g v) :
    g.getValue (pre ++ l :: sectionLines g ss) name = (valuesOf ss name, g) := by
  unfold Grabber.getValue
  simp only [if_neg hid]
  rw [scan_before g name pre _ hpre, scan_enter g name l _ hl hn, scan_sections g name hg ss .skip (by simp) hv]

/-- **C171, no parameters.** If no line of the file carries the name of the block, there are no values under any name. -/
theorem C171_missing (g : Grabber) (hid : g.sectionId ≠ []) (file : List Text) (name : Text)
    (h : ∀ x ∈ file, strip x ≠ g.sectionId) : g.getValue file name = ([], g) := by
  unfold Grabber.getValue
  simp only [if_neg hid]
  have := scan_before g name file [] h
  rw [List.append_nil] at this
  rw [this]
  rfl

example : (newGrabber "<!--odeenvironment parameters".toList '<' '>').getValue
    (["<world>\n", "<!--odeenvironment parameters\n", "<passpairs>\n", "('a', 'b')\n", " ('c', 'd') \n", "<centerOn>\n", "palm\n", "<end>\n", "-->\n"].map String.toList)
    "passpairs".toList = (["('a', 'b')".toList, "('c', 'd')".toList], newGrabber "<!--odeenvironment parameters".toList '<' '>') ∧
    (newGrabber "".toList '<' '>').getValue (["x\n", "<a>\n", "1\n"].map String.toList) "a".toList = (["1".toList], ⟨"x".toList, '<', '>'⟩) := by
  refine ⟨Prod.ext (by decide +kernel) ?_, Prod.ext (by decide +kernel) ?_⟩
  · rfl
  · rfl

/-- **C171, round trip.** Suppose a file with sensor elements is written, and none of the values that were given begins with the opening bracket or has whitespace around it, and the lines before do not contain the name of the parameter block. Then the environment reads back the pass sets, the body to center on, the joint to affix, the sensors and the colours that were given. -/
theorem C171_round_trip (p : Params) (t : Text) (ht : p.elements = some t) (pre : List Text)
    (hpre : ∀ x ∈ pre, strip x ≠ envGrabber.sectionId)
    (hv : ∀ v ∈ p.pass ++ p.centerOn.toList ++ p.affix.toList ++ t :: p.sensors ++ p.colors, v.head? ≠ some '<' ∧ strip v = v) :
    (envGrabber.getValue (pre ++ p.write) "passpairs".toList).1 = p.pass ∧
      (envGrabber.getValue (pre ++ p.write) "centerOn".toList).1 = p.centerOn.toList ∧
      (envGrabber.getValue (pre ++ p.write) "affixToEnvironment".toList).1 = p.affix.toList ∧
      (envGrabber.getValue (pre ++ p.write) "sensors".toList).1 = t :: p.sensors ∧
      (envGrabber.getValue (pre ++ p.write) "colors".toList).1 = p.colors := by
  have hg : envGrabber.opening ≠ '\n' := by rw [envGrabber_eq]; decide
  have hid : envGrabber.sectionId ≠ [] := by rw [envGrabber_eq]; decide
  have hl : strip (ln "<!--odeenvironment parameters".toList) = envGrabber.sectionId := by decide +kernel
  have ho : envGrabber.opening = '<' := by rw [envGrabber_eq]
  have hpl : ∀ s ∈ p.sections t, ∀ v ∈ s.2, Plain envGrabber v := by
    intro s hs v hvs
    unfold Plain
    rw [ho]
    have key : v ∈ p.pass ++ p.centerOn.toList ++ p.affix.toList ++ t :: p.sensors ++ p.colors ∨ v = "-->".toList := by
      unfold Params.sections at hs
      simp only [List.mem_append] at hs
      rcases hs with ((((hs | hs) | hs) | hs) | hs) | hs
      · unfold listSection at hs
        split at hs
        · rw [List.mem_singleton] at hs; subst hs; left; simp; exact Or.inl hvs
        · simp at hs
      · cases hc : p.centerOn with
        | none => rw [hc] at hs; simp [optSection] at hs
        | some c =>
          rw [hc] at hs; simp only [optSection, List.mem_singleton] at hs
          subst hs; left; simp at hvs; simp [hvs]
      · cases hc : p.affix with
        | none => rw [hc] at hs; simp [optSection] at hs
        | some c =>
          rw [hc] at hs; simp only [optSection, List.mem_singleton] at hs
          subst hs; left; simp at hvs; simp [hvs]
      · rw [List.mem_singleton] at hs
        subst hs
        left
        simp only [List.mem_append]
        exact Or.inl (Or.inr hvs)
      · unfold listSection at hs
        split at hs
        · rw [List.mem_singleton] at hs; subst hs; left; simp only [List.mem_append]; exact Or.inr hvs
        · simp at hs
      · rw [List.mem_singleton] at hs
        subst hs
        right
        simpa using hvs
    rcases key with h | h
    · exact (hv v h).1
    · rw [h]; decide
  have rd : ∀ name : Text, ln "<!--odeenvironment parameters".toList ≠ tagLine envGrabber name →
      (envGrabber.getValue (pre ++ p.write) name).1 = valuesOf (p.sections t) name := by
    intro name hn
    rw [write_eq p t ht, C171_sections envGrabber hg hid pre _ _ name hpre hl hn hpl]
  have hst : ∀ vs : List Text, (∀ v ∈ vs, v ∈ p.pass ++ p.centerOn.toList ++ p.affix.toList ++ t :: p.sensors ++ p.colors) → vs.map strip = vs := by
    intro vs h
    conv_rhs => rw [← List.map_id vs]
    exact List.map_congr_left fun v hvv => (hv v (h v hvv)).2
  have hls : ∀ (m n : Text) (vs : List Text), valuesOf (listSection m vs) n = if m = n then vs.map strip else [] := by
    intro m n vs
    unfold listSection valuesOf
    rcases vs with _ | ⟨v, vs⟩ <;> simp
  have hos : ∀ (m n : Text) (o : Option Text), valuesOf (optSection m o) n = if m = n then o.toList.map strip else [] := by
    intro m n o
    unfold valuesOf
    cases o <;> simp [optSection]
  have happ : ∀ (a b : List Section) (n : Text), valuesOf (a ++ b) n = valuesOf a n ++ valuesOf b n := by
    intro a b n
    simp [valuesOf]
  have h1 : ∀ (m n : Text) (vs : List Text), valuesOf [(m, vs)] n = if m = n then vs.map strip else [] := by
    intro m n vs
    simp [valuesOf]
  have hp1 := hst p.pass (fun v h => by simp only [List.mem_append]; simp [h])
  have hp2 := hst p.centerOn.toList (fun v h => by simp only [List.mem_append]; simp [h])
  have hp3 := hst p.affix.toList (fun v h => by simp only [List.mem_append]; simp [h])
  have hp4 := hst (t :: p.sensors) (fun v h => by simp only [List.mem_append]; simp [h])
  have hp5 := hst p.colors (fun v h => by simp only [List.mem_append]; simp [h])
  have d : ∀ name : Text, valuesOf (p.sections t) name =
      (if "passpairs".toList = name then p.pass else []) ++ (if "centerOn".toList = name then p.centerOn.toList else []) ++
        (if "affixToEnvironment".toList = name then p.affix.toList else []) ++ (if "sensors".toList = name then t :: p.sensors else []) ++
        (if "colors".toList = name then p.colors else []) ++ (if "end".toList = name then ["-->".toList].map strip else []) := by
    intro name
    unfold Params.sections
    rw [happ, happ, happ, happ, happ, hls, hls, hos, hos, h1, h1, hp1, hp2, hp3, hp4, hp5]
  refine ⟨?_, ?_, ?_, ?_, ?_⟩
  · rw [rd _ (by rw [envGrabber_eq]; decide), d]
    rw [if_pos rfl, if_neg (by decide), if_neg (by decide), if_neg (by decide), if_neg (by decide), if_neg (by decide)]
    simp
  · rw [rd _ (by rw [envGrabber_eq]; decide), d]
    rw [if_neg (by decide), if_pos rfl, if_neg (by decide), if_neg (by decide), if_neg (by decide), if_neg (by decide)]
    simp
  · rw [rd _ (by rw [envGrabber_eq]; decide), d]
    rw [if_neg (by decide), if_neg (by decide), if_pos rfl, if_neg (by decide), if_neg (by decide), if_neg (by decide)]
    simp
  · rw [rd _ (by rw [envGrabber_eq]; decide), d]
    rw [if_neg (by decide), if_neg (by decide), if_neg (by decide), if_pos rfl, if_neg (by decide), if_neg (by decide)]
    simp
  · rw [rd _ (by rw [envGrabber_eq]; decide), d]
    rw [if_neg (by decide), if_neg (by decide), if_neg (by decide), if_neg (by decide), if_pos rfl, if_neg (by decide)]
    simp

example : (envGrabber.getValue (Params.write ⟨["('a', 'b')".toList], none, some "palm".toList, some "E()".toList, ["S()".toList], []⟩) "sensors".toList).1 =
    ["E()".toList, "S()".toList] := by decide +kernel

/-- **C171, negation: sensors without sensor elements.** Without sensor elements the commands for the sensors are written without their tag: the environment reads back no sensors, and takes the commands for values of the section before, in the example for names of joints to affix. -/
theorem C171_negation_sensors : ∃ p : Params, p.sensors ≠ [] ∧ p.elements = none ∧
    (envGrabber.getValue p.write "sensors".toList).1 = [] ∧
    (envGrabber.getValue p.write "affixToEnvironment".toList).1 = p.affix.toList ++ p.sensors :=
  ⟨⟨[], none, some "palm".toList, none, ["JointSensor()".toList], []⟩, by decide +kernel⟩

/-- **C171, negation: indented tags.** A tag with a space before it is not recognised but counts as a value. -/
theorem C171_negation_indent : ∃ (file : List Text), " <colors>\n".toList ∈ file ∧
    (envGrabber.getValue file "colors".toList).1 = [] ∧ "<colors>".toList ∈ (envGrabber.getValue file "passpairs".toList).1 :=
  ⟨["<!--odeenvironment parameters\n".toList, "<passpairs>\n".toList, " <colors>\n".toList, "x\n".toList], by decide +kernel⟩

/-- **C171, objects that pass each other.** Two objects with names do not get contact joints if one tuple of names has a member that occurs in the name of the first object and a member that occurs in the name of the second one. In all other cases a contact joint is made for each contact, also if one of the objects has no name. -/
theorem C171_contacts {C : Type} (pairs : List (List Text)) (n1 n2 : Option Text) (contacts : List C) :
    ((∃ a b, n1 = some a ∧ n2 = some b ∧ ∃ p ∈ pairs, (∃ x ∈ p, x <:+: a) ∧ ∃ y ∈ p, y <:+: b) →
        nearCallback pairs n1 n2 contacts = []) ∧
      ((¬ ∃ a b, n1 = some a ∧ n2 = some b ∧ ∃ p ∈ pairs, (∃ x ∈ p, x <:+: a) ∧ ∃ y ∈ p, y <:+: b) →
        nearCallback pairs n1 n2 contacts = contacts) := by
  constructor
  · rintro ⟨a, b, rfl, rfl, h⟩
    simp [nearCallback, (passing_iff a b pairs).2 h]
  · intro h
    rcases n1 with _ | a <;> rcases n2 with _ | b
    · rfl
    · rfl
    · rfl
    · have : passing a b pairs = false := by
        rw [Bool.eq_false_iff]
        intro hp
        exact h ⟨a, b, rfl, rfl, (passing_iff a b pairs).1 hp⟩
      simp [nearCallback, this]

/-- **C171, symmetry.** Whether two objects pass each other does not depend on their order. -/
theorem C171_symmetric {C : Type} (pairs : List (List Text)) (n1 n2 : Option Text) (contacts : List C) :
    nearCallback pairs n1 n2 contacts = nearCallback pairs n2 n1 contacts := by
  rcases n1 with _ | a <;> rcases n2 with _ | b
  · rfl
  · rfl
  · rfl
  · have : passing a b pairs = passing b a pairs := by
      rw [Bool.eq_iff_iff, passing_iff, passing_iff]
      exact ⟨fun ⟨p, h1, h2, h3⟩ => ⟨p, h1, h3, h2⟩, fun ⟨p, h1, h2, h3⟩ => ⟨p, h1, h3, h2⟩⟩
    simp [nearCallback, this]

example : nearCallback [["arm".toList, "hip".toList]] (some "arm_left".toList) (some "hip".toList) [1, 2] = ([] : List Nat) ∧
    nearCallback [["arm".toList], ["hip".toList]] (some "arm_left".toList) (some "hip".toList) [1, 2] = [1, 2] := by decide +kernel

/-- **C171, negation: parts of names.** Objects pass each other although their names are not in the tuple: it suffices that a member of the tuple is a part of their names. -/
theorem C171_negation_parts : ∃ (pairs : List (List Text)) (a b : Text), (∀ p ∈ pairs, a ∉ p ∧ b ∉ p) ∧
    nearCallback pairs (some a) (some b) [()] = [] :=
  ⟨[["leg1".toList]], "leg10".toList, "leg11".toList, by decide +kernel⟩

end Verif.Props

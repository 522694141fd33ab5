import Verif.Model.XodeBody
import Mathlib.Tactic.Ring
import Mathlib.Tactic.Linarith
import Mathlib.Tactic.Positivity
import Mathlib.Analysis.Real.Pi.Bounds
import Mathlib.Algebra.Group.TypeTags.Basic
/-
Properties of the parsers of bodies, masses and geoms in XODE files.
-/
namespace Verif.Spec

open Verif.XodeBody

variable {G : Type} [Monoid G]

/-- The transformation that an element gives. -/
def ownOf : List (Node G) → G
  | [] => 1
  | .transform t :: _ => t
  | _ :: cs => ownOf cs

/-- Whether it gives one. -/
def hasTransform (cs : List (Node G)) : Bool := cs.any fun c => match c with
  | .transform _ => true
  | _ => false

mutual
/-- The places of all bodies (`true`) and shapes (`false`) in an element: the products of the transformations given around them, from outside to inside. -/
def places (path : G) : Node G → List (Bool × G)
  | .body cs => placesL (path * ownOf cs) cs ++ [(true, path * ownOf cs)]
  | .geom cs => placesL (path * ownOf cs) cs
  | .shape => [(false, path)]
  | _ => []
def placesL (path : G) : List (Node G) → List (Bool × G)
  | [] => []
  | c :: cs => places path c ++ placesL path cs
end

mutual
/-- The transformation is the first child of every element, and below a transformed geom within a body (`moved`), shapes are in geoms with a transformation of their own (otherwise `lost`). -/
def Tidy (inBody moved lost : Bool) : Node G → Prop
  | .body cs => hasTransform cs.tail = false ∧ TidyL true false false cs
  | .geom cs => hasTransform cs.tail = false ∧ TidyL inBody (moved || hasTransform cs) (inBody && moved && !hasTransform cs) cs
  | .shape => lost = false
  | _ => True
def TidyL (inBody moved lost : Bool) : List (Node G) → Prop
  | [] => True
  | c :: cs => Tidy inBody moved lost c ∧ TidyL inBody moved lost cs
end

/-- The place of a record. -/
def recPlace : Rec G → Option (Bool × G)
  | .body p _ => some (true, p)
  | .shape _ p => some (false, p)
  | .fixed => none

/-- The amounts of mass given by the children of a mass element that is built up tidily: nested masses count with their own amount. -/
inductive Amount : List MassItem → ℝ → Prop
  /-- a shape with density first, and then nested masses -/
  | shape (d : ℝ) (s : Shape) (v : ℝ) (h : volume s = .ok v) (parts : List (List MassItem × ℝ)) (hp : ∀ q ∈ parts, Amount q.1 q.2) :
      Amount (.shape (some d) [s] :: parts.map fun q => .mass q.1) (d * v + (parts.map Prod.snd).sum)
  /-- a total, after anything -/
  | adjust (before : List MassItem) (m t : ℝ) (h : Amount before m) : Amount (before ++ [.adjust (some t)]) t

end Verif.Spec

namespace Verif.XodeBody

open Verif.Spec

variable {G : Type} [Monoid G]

theorem tidy_cons_tail (a b c : Bool) (cs : List (Node G)) (h : TidyL a b c cs) : TidyL a b c cs.tail := by
  cases cs with
  | nil => trivial
  | cons x xs => simp only [TidyL] at h; exact h.2

theorem placesL_transform (path : G) (t : G) (cs : List (Node G)) : placesL path (.transform t :: cs) = placesL path cs := by
  simp [placesL, places]

theorem ownOf_none (cs : List (Node G)) (h : hasTransform cs = false) : ownOf cs = 1 := by
  induction cs with
  | nil => rfl
  | cons c cs ih =>
    unfold hasTransform at h ih
    rw [List.any_cons, Bool.or_eq_false_iff] at h
    cases c <;> first
      | (simp at h; done)
      | (unfold ownOf; exact ih h.2)

/-- An element is its transformation followed by children without one, or has none. -/
theorem split_own (cs : List (Node G)) (h : hasTransform cs.tail = false) : (∃ t rest, cs = .transform t :: rest ∧ hasTransform rest = false ∧ ownOf cs = t ∧ hasTransform cs = true) ∨
    (hasTransform cs = false ∧ ownOf cs = 1) := by
  cases cs with
  | nil => exact Or.inr ⟨rfl, rfl⟩
  | cons c cs =>
    cases c with
    | transform t => exact Or.inl ⟨t, cs, rfl, h, rfl, rfl⟩
    | _ =>
      right
      have h2 : ownOf cs = 1 := ownOf_none cs h
      exact ⟨h, h2⟩

/-- What is shown about the children of a body. -/
def BodyGood (cs : List (Node G)) : Prop := hasTransform cs = false → TidyL true false false cs → ∀ (path : G) (st st' : BodySt G), (st.placed = none ∨ st.placed = some (path * st.own)) →
  bodyNodes path cs st = .ok st' → st'.own = st.own ∧ (st'.placed = none ∨ st'.placed = some (path * st.own)) ∧
    st'.out.filterMap recPlace = st.out.filterMap recPlace ++ placesL (path * st.own) cs

/-- What is shown about the children of a geom. -/
def GeomGood (cs : List (Node G)) : Prop := ∀ inBody moved lost, hasTransform cs = false → TidyL inBody moved lost cs → ∀ (c : Ctx G) (st st' : GeomSt G),
  (∀ b, c.body = some b → inBody = true ∧ c.path = b * c.rel ∧ (st.transformed = false → st.own = 1 ∧ (lost = false → c.rel = 1))) → (moved = false → c.rel * st.own = 1) →
  geomNodes c cs st = .ok st' → st'.own = st.own ∧ st'.out.filterMap recPlace = st.out.filterMap recPlace ++ placesL (c.path * st.own) cs

theorem apply_placed (path : G) (st : BodySt G) (h : st.placed = none ∨ st.placed = some (path * st.own)) : (apply path st).placed = some (path * st.own) ∧ (apply path st).own = st.own ∧ (apply path st).out = st.out ∧ (apply path st).mass = st.mass := by
  unfold apply
  rcases h with h | h <;> rw [h] <;> simp [h]

theorem body_children (path : G) (cs : List (Node G)) (hd : hasTransform cs.tail = false) (ht : TidyL true false false cs) (hg : ∀ l : List (Node G), l = cs ∨ l = cs.tail → BodyGood l) (b : BodySt G)
    (h : bodyNodes path cs ⟨1, none, none, []⟩ = .ok b) : b.out.filterMap recPlace = placesL (path * ownOf cs) cs ∧ (apply path b).placed = some (path * ownOf cs) := by
  rcases split_own cs hd with ⟨t, rest, rfl, hr, ho, -⟩ | ⟨hn, ho⟩
  · rw [bodyNodes, bodyNode] at h
    have h' : bodyNodes path rest ⟨t, none, none, []⟩ = .ok b := h
    obtain ⟨h1, h2, h3⟩ := hg rest (Or.inr rfl) hr (tidy_cons_tail _ _ _ _ ht) path _ b (Or.inl rfl) h'
    rw [ho, placesL_transform]
    refine ⟨by simpa using h3, ?_⟩
    have := (apply_placed path b (by rw [h1]; exact h2)).1
    rw [this, h1]
  · obtain ⟨h1, h2, h3⟩ := hg cs (Or.inl rfl) hn ht path _ b (Or.inl rfl) h
    rw [ho]
    refine ⟨by simpa using h3, ?_⟩
    have := (apply_placed path b (by rw [h1]; exact h2)).1
    rw [this, h1]

theorem geom_children (c : Ctx G) (inBody moved : Bool) (hb : ∀ b, c.body = some b → inBody = true ∧ c.path = b * c.rel) (hm : moved = false → c.rel = 1) (cs : List (Node G)) (hd : hasTransform cs.tail = false)
    (ht : TidyL inBody (moved || hasTransform cs) (inBody && moved && !hasTransform cs) cs) (hg : ∀ l : List (Node G), l = cs ∨ l = cs.tail → GeomGood l) (g : GeomSt G)
    (h : geomNodes c cs ⟨1, false, false, []⟩ = .ok g) : g.out.filterMap recPlace = placesL (c.path * ownOf cs) cs := by
  rcases split_own cs hd with ⟨t, rest, rfl, hr, ho, hh⟩ | ⟨hn, ho⟩
  · rw [geomNodes, geomNode] at h
    have h' : geomNodes c rest ⟨t, true, false, []⟩ = .ok g := h
    rw [hh] at ht
    obtain ⟨h1, h3⟩ := hg rest (Or.inr rfl) inBody (moved || true) _ hr (tidy_cons_tail _ _ _ _ ht) c _ g (fun b e => ⟨(hb b e).1, (hb b e).2, fun e => by simp at e⟩) (fun e => by simp at e) h'
    rw [ho, placesL_transform]
    simpa using h3
  · rw [hn] at ht
    obtain ⟨h1, h3⟩ := hg cs (Or.inl rfl) inBody (moved || false) _ hn ht c _ g (fun b e => ⟨(hb b e).1, (hb b e).2, fun _ => ⟨rfl, fun hl => by
      rw [(hb b e).1] at hl
      exact hm (by simpa using hl)⟩⟩) (fun e => by rw [mul_one]; exact hm (by simpa using e)) h
    rw [ho]
    simpa using h3

theorem hasTransform_cons (c : Node G) (cs : List (Node G)) (h : hasTransform (c :: cs) = false) : (∀ t, c ≠ .transform t) ∧ hasTransform cs = false := by
  unfold hasTransform at *
  rw [List.any_cons, Bool.or_eq_false_iff] at h
  refine ⟨?_, h.2⟩
  rintro t rfl
  simp at h

theorem good (k : ℕ) : ∀ cs : List (Node G), sizeOf cs < k → BodyGood cs ∧ GeomGood cs := by
  induction k with
  | zero => intro cs h; omega
  | succ k ih =>
    intro cs hk
    cases cs with
    | nil =>
      constructor
      · intro _ _ path st st' hp h
        rw [bodyNodes] at h
        obtain rfl := Except.ok.inj h
        exact ⟨rfl, hp, by simp [placesL]⟩
      · intro _ _ _ _ _ c st st' _ _ h
        rw [geomNodes] at h
        obtain rfl := Except.ok.inj h
        exact ⟨rfl, by simp [placesL]⟩
    | cons x cs =>
      have hcs : sizeOf cs < k := by simp only [List.cons.sizeOf_spec] at hk; omega
      obtain ⟨ihB, ihG⟩ := ih cs hcs
      have hsub : ∀ ys : List (Node G), sizeOf ys < sizeOf x → ∀ l, l = ys ∨ l = ys.tail → BodyGood l ∧ GeomGood l := by
        intro ys hy l hl
        have hx : sizeOf x < k := by simp only [List.cons.sizeOf_spec] at hk; omega
        refine ih l ?_
        rcases hl with rfl | rfl
        · omega
        · cases ys with
          | nil => simp at hy ⊢; omega
          | cons z zs => simp only [List.cons.sizeOf_spec, List.tail_cons] at *; omega
      constructor
      · intro hn ht path st st' hp h
        obtain ⟨hx, hn'⟩ := hasTransform_cons x cs hn
        simp only [TidyL] at ht
        obtain ⟨a1, a2, a3, a4⟩ := apply_placed path st hp
        rw [bodyNodes] at h
        -- after the first child
        have step : ∀ st1, bodyNode path x st = .ok st1 → st1.own = st.own ∧ (st1.placed = none ∨ st1.placed = some (path * st.own)) ∧
            st1.out.filterMap recPlace = st.out.filterMap recPlace ++ places (path * st.own) x := by
          intro st1 h1
          cases x with
          | transform t => exact absurd rfl (hx t)
          | motion =>
            rw [bodyNode] at h1
            obtain rfl := Except.ok.inj h1
            exact ⟨a2, Or.inr a1, by rw [a3]; simp [places]⟩
          | joint =>
            rw [bodyNode] at h1
            obtain rfl := Except.ok.inj h1
            exact ⟨a2, Or.inr a1, by rw [a3]; simp [places]⟩
          | mass items =>
            rw [bodyNode] at h1
            cases hm : massOf items with
            | error e => rw [hm] at h1; simp [Except.map] at h1
            | ok m =>
              rw [hm] at h1
              obtain rfl := Except.ok.inj h1
              exact ⟨a2, Or.inr a1, by simp only [a3]; simp [places]⟩
          | body ys =>
            rw [bodyNode] at h1
            cases hb : bodyNodes (path * st.own) ys ⟨1, none, none, []⟩ with
            | error e => rw [hb] at h1; simp [Except.map] at h1
            | ok b =>
              rw [hb] at h1
              obtain rfl := Except.ok.inj h1
              simp only [Tidy] at ht
              obtain ⟨c1, c2⟩ := body_children (path * st.own) ys ht.1.1 ht.1.2 (fun l hl => (hsub ys (by simp) l hl).1) b hb
              refine ⟨a2, Or.inr a1, ?_⟩
              simp only [List.filterMap_append, c1, c2, List.append_assoc, Option.getD_some]
              simp [places, recPlace]
          | geom ys =>
            rw [bodyNode] at h1
            cases hb : geomNodes (around path st) ys ⟨1, false, false, []⟩ with
            | error e => rw [hb] at h1; simp [Except.bind] at h1
            | ok g =>
              rw [hb] at h1
              simp only [Except.bind] at h1
              split_ifs at h1
              obtain rfl := Except.ok.inj h1
              simp only [Tidy] at ht
              have c1 := geom_children (around path st) true false (fun b e => ⟨rfl, by
                  simp only [around, a1, Option.some.injEq] at e ⊢
                  rw [mul_one, e]⟩) (fun _ => rfl) ys ht.1.1 ht.1.2 (fun l hl => (hsub ys (by simp) l hl).2) g hb
              refine ⟨a2, Or.inr a1, ?_⟩
              simp only [List.filterMap_append, c1]
              simp [places, around]
          | _ => rw [bodyNode] at h1; simp at h1
        cases h1 : bodyNode path x st with
        | error e => rw [h1] at h; simp [Except.bind] at h
        | ok st1 =>
          rw [h1] at h
          obtain ⟨b1, b2, b3⟩ := step st1 h1
          obtain ⟨d1, d2, d3⟩ := ihB hn' ht.2 path st1 st' (by rw [b1]; exact b2) h
          rw [b1] at d1 d2 d3
          exact ⟨d1, d2, by rw [d3, b3]; simp [placesL]⟩
      · intro inBody moved lost hn ht c st st' hb hm h
        obtain ⟨hx, hn'⟩ := hasTransform_cons x cs hn
        simp only [TidyL] at ht
        rw [geomNodes] at h
        have step : ∀ st1, geomNode c x st = .ok st1 → st1.own = st.own ∧ st1.transformed = st.transformed ∧ st1.out.filterMap recPlace = st.out.filterMap recPlace ++ places (c.path * st.own) x := by
          intro st1 h1
          cases x with
          | transform t => exact absurd rfl (hx t)
          | shape =>
            rw [geomNode] at h1
            obtain rfl := Except.ok.inj h1
            simp only [Tidy] at ht
            unfold setObject
            cases hcb : c.body with
            | none => simp [places, recPlace]
            | some b =>
              obtain ⟨-, e1, e2⟩ := hb b hcb
              cases hst : st.transformed with
              | true => simp [places, recPlace, e1, mul_assoc, hst]
              | false =>
                obtain ⟨e3, e4⟩ := e2 hst
                simp [places, recPlace, e1, e3, e4 ht.1, hst]
          | fixed =>
            rw [geomNode] at h1
            obtain rfl := Except.ok.inj h1
            simp [places, recPlace]
          | joint =>
            rw [geomNode] at h1
            obtain rfl := Except.ok.inj h1
            simp [places]
          | ignored =>
            rw [geomNode] at h1
            obtain rfl := Except.ok.inj h1
            simp [places]
          | body ys =>
            rw [geomNode] at h1
            cases hbb : bodyNodes (c.path * st.own) ys ⟨1, none, none, []⟩ with
            | error e => rw [hbb] at h1; simp [Except.map] at h1
            | ok b =>
              rw [hbb] at h1
              obtain rfl := Except.ok.inj h1
              simp only [Tidy] at ht
              obtain ⟨c1, c2⟩ := body_children (c.path * st.own) ys ht.1.1 ht.1.2 (fun l hl => (hsub ys (by simp) l hl).1) b hbb
              refine ⟨rfl, rfl, ?_⟩
              simp only [List.filterMap_append, c1, c2, List.append_assoc, Option.getD_some]
              simp [places, recPlace]
          | geom ys =>
            rw [geomNode] at h1
            cases hbb : geomNodes ⟨c.path * st.own, c.body, c.rel * st.own⟩ ys ⟨1, false, false, []⟩ with
            | error e => rw [hbb] at h1; simp [Except.bind] at h1
            | ok g =>
              rw [hbb] at h1
              simp only [Except.bind] at h1
              split_ifs at h1
              obtain rfl := Except.ok.inj h1
              simp only [Tidy] at ht
              have c1 := geom_children ⟨c.path * st.own, c.body, c.rel * st.own⟩ inBody moved (fun b e => ⟨(hb b e).1, by
                  show c.path * st.own = b * (c.rel * st.own)
                  rw [(hb b e).2.1, mul_assoc]⟩) hm ys ht.1.1 ht.1.2 (fun l hl => (hsub ys (by simp) l hl).2) g hbb
              refine ⟨rfl, rfl, ?_⟩
              simp only [List.filterMap_append, c1]
              simp [places]
          | _ => rw [geomNode] at h1; simp at h1
        cases h1 : geomNode c x st with
        | error e => rw [h1] at h; simp [Except.bind] at h
        | ok st1 =>
          rw [h1] at h
          obtain ⟨b1, b2, b3⟩ := step st1 h1
          obtain ⟨d1, d3⟩ := ihG inBody moved lost hn' ht.2 c st1 st' (by rw [b1, b2]; exact hb) (by rw [b1]; exact hm) h
          rw [b1] at d1 d3
          exact ⟨d1, by rw [d3, b3]; simp [placesL]⟩

theorem massItems_append (as bs : List MassItem) (m : ℝ) : massItems (as ++ bs) m = (massItems as m).bind fun k => massItems bs k := by
  induction as generalizing m with
  | nil => rw [List.nil_append, massItems]; rfl
  | cons a as ih =>
    rw [List.cons_append, massItems, massItems]
    cases h : massItem a m with
    | error e => rfl
    | ok k => exact ih k

theorem massItems_parts (parts : List (List MassItem × ℝ)) (h : ∀ q ∈ parts, massOf q.1 = .ok q.2) (m : ℝ) :
    massItems (parts.map fun q => .mass q.1) m = .ok (m + (parts.map Prod.snd).sum) := by
  induction parts generalizing m with
  | nil => simp [massItems]
  | cons q qs ih =>
    have h1 := h q (by simp)
    unfold massOf at h1
    rw [List.map_cons, massItems, massItem, h1]
    have := ih (fun r hr => h r (by simp [hr])) (m + q.2)
    rw [List.map_cons, List.sum_cons, ← add_assoc]
    exact this

/-- The mass elements among the children. -/
def masses (cs : List (Node G)) : List (List MassItem) := cs.filterMap fun c => match c with
  | .mass items => some items
  | _ => none

theorem apply_mass (path : G) (st : BodySt G) : (apply path st).mass = st.mass := by
  unfold apply
  split <;> rfl

theorem bodyNodes_mass (path : G) (cs : List (Node G)) (st st' : BodySt G) (h : bodyNodes path cs st = .ok st') :
    match (masses cs).getLast? with
    | none => st'.mass = st.mass
    | some items => ∃ m, massOf items = .ok m ∧ st'.mass = some m := by
  induction cs generalizing st with
  | nil =>
    rw [bodyNodes] at h
    obtain rfl := Except.ok.inj h
    rfl
  | cons c cs ih =>
    rw [bodyNodes] at h
    cases h1 : bodyNode path c st with
    | error e => rw [h1] at h; simp [Except.bind] at h
    | ok st1 =>
      rw [h1] at h
      have h2 := ih st1 h
      have keep : masses (c :: cs) = masses cs → st1.mass = st.mass → match (masses (c :: cs)).getLast? with
          | none => st'.mass = st.mass
          | some items => ∃ m, massOf items = .ok m ∧ st'.mass = some m := by
        intro e1 e2
        rw [e1, ← e2]
        exact h2
      cases c with
      | mass items =>
        rw [bodyNode] at h1
        cases hm : massOf items with
        | error e => rw [hm] at h1; simp [Except.map] at h1
        | ok m =>
          rw [hm] at h1
          obtain rfl := Except.ok.inj h1
          have e : masses (.mass items :: cs) = items :: masses cs := rfl
          rw [e]
          cases hl : (masses cs).getLast? with
          | none =>
            rw [hl] at h2
            have : masses cs = [] := List.getLast?_eq_none_iff.1 hl
            rw [this]
            exact ⟨m, hm, h2⟩
          | some it =>
            rw [hl] at h2
            rw [List.getLast?_cons, hl]
            exact h2
      | transform t =>
        rw [bodyNode] at h1
        obtain rfl := Except.ok.inj h1
        exact keep rfl rfl
      | motion =>
        rw [bodyNode] at h1
        obtain rfl := Except.ok.inj h1
        exact keep rfl (apply_mass _ _)
      | joint =>
        rw [bodyNode] at h1
        obtain rfl := Except.ok.inj h1
        exact keep rfl (apply_mass _ _)
      | body ys =>
        rw [bodyNode] at h1
        cases hb : bodyNodes (path * st.own) ys ⟨1, none, none, []⟩ with
        | error e => rw [hb] at h1; simp [Except.map] at h1
        | ok b =>
          rw [hb] at h1
          obtain rfl := Except.ok.inj h1
          exact keep rfl (apply_mass _ _)
      | geom ys =>
        rw [bodyNode] at h1
        cases hb : geomNodes (around path st) ys ⟨1, false, false, []⟩ with
        | error e => rw [hb] at h1; simp [Except.bind] at h1
        | ok g =>
          rw [hb] at h1
          simp only [Except.bind] at h1
          split_ifs at h1
          obtain rfl := Except.ok.inj h1
          exact keep rfl (apply_mass _ _)
      | _ => rw [bodyNode] at h1; simp at h1

end Verif.XodeBody

namespace Verif.Props

open Verif.Spec Verif.XodeBody

variable {G : Type} [Monoid G]

/-- In tidy files: a body element that is accepted puts every body and every shape in it, at whatever depth of bodies and geoms, at the product of the transformations given around it. -/
theorem C195_places_partial (path : G) (cs : List (Node G)) (ht : Tidy false false false (.body cs)) (out : List (Rec G)) (h : parseBody path cs = .ok out) :
    out.filterMap recPlace = places path (.body cs) := by
  simp only [Tidy] at ht
  unfold parseBody at h
  cases hb : bodyNodes path cs ⟨1, none, none, []⟩ with
  | error e => rw [hb] at h; simp [Except.map] at h
  | ok b =>
    rw [hb] at h
    obtain rfl := Except.ok.inj h
    obtain ⟨h1, h2⟩ := body_children path cs ht.1 ht.2 (fun l _ => (good (sizeOf l + 1) l (by omega)).1) b hb
    rw [List.filterMap_append, h1, h2]
    simp [places, recPlace]

/-- The same for geom elements outside of bodies, whatever bodies they contain. -/
theorem C195_geom_partial (path : G) (cs : List (Node G)) (ht : Tidy false false false (.geom cs)) (out : List (Rec G)) (h : parseGeom path cs = .ok out) :
    out.filterMap recPlace = places path (.geom cs) := by
  simp only [Tidy] at ht
  unfold parseGeom at h
  cases hb : geomNodes ⟨path, none, 1⟩ cs ⟨1, false, false, []⟩ with
  | error e => rw [hb] at h; simp [Except.bind] at h
  | ok g =>
    rw [hb] at h
    simp only [Except.bind] at h
    split_ifs at h
    obtain rfl := Except.ok.inj h
    have := geom_children ⟨path, none, 1⟩ false false (fun b e => by simp at e) (fun _ => rfl) cs ht.1 ht.2 (fun l _ => (good (sizeOf l + 1) l (by omega)).2) g hb
    rw [this, places]

/-- A body two steps away with a geom at its place and one that is three steps further, in a world that is shifted by one. -/
private def shiftedBody : List (Node (Multiplicative ℤ)) :=
  [.transform (.ofAdd 2), .geom [.shape], .geom [.transform (.ofAdd 3), .shape], .motion, .body [.transform (.ofAdd 5), .geom [.shape]]]

example : Tidy false false false (.body shiftedBody) ∧ ∃ out, parseBody (.ofAdd 1) shiftedBody = .ok out ∧
    out.filterMap recPlace = [(false, .ofAdd 3), (false, .ofAdd 6), (false, .ofAdd 8), (true, .ofAdd 8), (true, .ofAdd 3)] := by
  refine ⟨by simp [shiftedBody, Tidy, TidyL, hasTransform], _, rfl, ?_⟩
  simp [apply, setObject, around, recPlace]
  decide

/-- The mass of a mass element that begins with a shape with density, followed by nested masses (of this form again), is the density times the volume plus the nested masses; a final `adjust` sets it. -/
theorem C195_mass_partial (items : List MassItem) (m : ℝ) (h : Amount items m) : massOf items = .ok m := by
  induction h with
  | shape d s v hv parts hp ih =>
    unfold massOf
    rw [massItems, massItem]
    have : [s].foldlM (shapeStart (some d)) (1 * ball 1) = .ok (d * v) := by
      simp [shapeStart, hv, bind, Except.bind, pure, Except.pure]
    rw [this]
    exact massItems_parts parts ih (d * v)
  | adjust before m t hb ih =>
    unfold massOf at *
    rw [massItems_append, ih]
    simp [massItems, massItem, need, Except.bind, bind]

example : Amount [.shape (some 2) [.box (some 1) (some 2) (some 3)], .mass [.shape (some 5) [.box (some 1) (some 1) (some 1)]]] (2 * (1 * 2 * 3) + (5 * (1 * 1 * 1) + 0 + 0)) := by
  have := Amount.shape 5 (.box (some 1) (some 1) (some 1)) (1 * 1 * 1) rfl [] (by simp)
  have h2 := Amount.shape 2 (.box (some 1) (some 2) (some 3)) (1 * 2 * 3) rfl [([.shape (some 5) [.box (some 1) (some 1) (some 1)]], 5 * (1 * 1 * 1) + 0)] (by
    intro q hq
    simp only [List.mem_singleton] at hq
    subst hq
    simpa using this)
  simpa using h2

/-- The volumes of the shapes, with radius one as default. -/
theorem C195_volume (r l x y z : ℝ) : volume (.sphere (some r)) = .ok (4 / 3 * Real.pi * r ^ 3) ∧ volume (.sphere none) = .ok (4 / 3 * Real.pi) ∧ volume (.box (some x) (some y) (some z)) = .ok (x * y * z) ∧
    volume (.cylinder (some r) (some l)) = .ok (Real.pi * r ^ 2 * l) ∧ volume (.cappedCylinder (some r) (some l)) = .ok (Real.pi * r ^ 2 * l + 4 / 3 * Real.pi * r ^ 3) := by
  refine ⟨rfl, ?_, rfl, rfl, rfl⟩
  simp [volume, ball]

/-- The mass of a body is that of the last of its mass elements, whatever other children it has. -/
theorem C195_body (path : G) (cs : List (Node G)) (out : List (Rec G)) (h : parseBody path cs = .ok out) : ∃ front place mass, out = front ++ [.body place mass] ∧
    match (masses cs).getLast? with
    | none => mass = none
    | some items => ∃ m, massOf items = .ok m ∧ mass = some m := by
  unfold parseBody at h
  cases hb : bodyNodes path cs ⟨1, none, none, []⟩ with
  | error e => rw [hb] at h; simp [Except.map] at h
  | ok b =>
    rw [hb] at h
    obtain rfl := Except.ok.inj h
    exact ⟨b.out, _, b.mass, rfl, bodyNodes_mass path cs _ b hb⟩

/-- A geom without a shape, plane or ray is refused, in whatever place. -/
theorem C195_empty (path : G) (ts : List G) : parseGeom path (ts.map .transform) = .error .invalid := by
  have h : ∀ (ts : List G) (st : GeomSt G), ∃ st', geomNodes ⟨path, none, 1⟩ (ts.map .transform) st = .ok st' ∧ st'.object = st.object := by
    intro ts
    induction ts with
    | nil => intro st; exact ⟨st, by rw [List.map_nil, geomNodes], rfl⟩
    | cons t ts ih =>
      intro st
      obtain ⟨st', h1, h2⟩ := ih { st with own := t, transformed := true }
      refine ⟨st', ?_, h2⟩
      rw [List.map_cons, geomNodes, geomNode]
      exact h1
  obtain ⟨st', h1, h2⟩ := h ts ⟨1, false, false, []⟩
  unfold parseGeom
  rw [h1]
  simp [Except.bind, h2]

/-- A mass element that contains only nested masses is heavier than they are together, by the mass of a sphere of radius and density one. -/
theorem C195_negation_nested (parts : List (List MassItem × ℝ)) (h : ∀ q ∈ parts, massOf q.1 = .ok q.2) :
    ∃ m, massOf (parts.map fun q => .mass q.1) = .ok m ∧ (parts.map Prod.snd).sum + 4 < m := by
  refine ⟨_, massItems_parts parts h _, ?_⟩
  have := Real.pi_gt_three
  unfold ball
  linarith

/-- A shape after nested masses discards them. -/
theorem C195_negation_order (d : ℝ) (s : Shape) (v : ℝ) (hv : volume s = .ok v) (parts : List (List MassItem × ℝ)) (h : ∀ q ∈ parts, massOf q.1 = .ok q.2) :
    massOf ((parts.map fun q => .mass q.1) ++ [.shape (some d) [s]]) = .ok (d * v) := by
  unfold massOf
  rw [massItems_append, massItems_parts parts h]
  simp [massItems, massItem, shapeStart, hv, Except.bind, bind, pure, Except.pure]

/-- A shape without density is ignored: the mass is that of the sphere, for all shapes and sizes. -/
theorem C195_negation_density (s : Shape) (v : ℝ) (hv : volume s = .ok v) : massOf [.shape none [s]] = .ok (4 / 3 * Real.pi) := by
  unfold massOf
  simp [massItems, massItem, shapeStart, hv, bind, Except.bind, pure, Except.pure, ball]

example : volume (.box (some 1) (some 2) (some 3)) = .ok (1 * 2 * 3) ∧ ∀ q ∈ [([.shape (some 5) [.box (some 1) (some 1) (some 1)]], (5 * (1 * 1 * 1) + 0 : ℝ))], massOf q.1 = .ok q.2 := by
  refine ⟨rfl, fun q hq => ?_⟩
  simp only [List.mem_singleton] at hq
  subst hq
  exact C195_mass_partial _ _ (by simpa using Amount.shape 5 (.box (some 1) (some 1) (some 1)) (1 * 1 * 1) rfl [] (by simp))

/-- Of two mass elements of a body only the second counts. -/
theorem C195_negation_masses (path : G) (a b : List MassItem) (m k : ℝ) (ha : massOf a = .ok m) (hb : massOf b = .ok k) : ∃ place, parseBody path [.mass a, .mass b] = .ok [.body place (some k)] := by
  refine ⟨path * 1, ?_⟩
  unfold parseBody
  simp [bodyNodes, bodyNode, ha, hb, Except.map, Except.bind, apply]

/-- A transformation that comes after the first other child of a body, or after the shape of a geom, is without effect on it. -/
theorem C195_negation_late (path t : G) : parseBody path [.motion, .transform t] = .ok [.body path none] ∧ parseGeom path [.shape, .transform t] = .ok [.shape false path] := by
  constructor
  · unfold parseBody
    simp [bodyNodes, bodyNode, Except.map, Except.bind, apply]
  · unfold parseGeom
    simp [geomNodes, geomNode, Except.bind, setObject]

/-- Within a body the transformation of a geom around a geom without one of its own is without effect on the inner one: its shape is put at the place of the body. -/
theorem C195_negation_lost (path t : G) : parseBody path [.geom [.transform t, .shape, .geom [.shape]]] = .ok [.shape true (path * t), .shape true path, .body path none] ∧
    places path (.body [.geom [.transform t, .shape, .geom [.shape]]]) = [(false, path * t), (false, path * t), (true, path)] := by
  constructor
  · unfold parseBody
    simp [bodyNodes, bodyNode, geomNodes, geomNode, Except.map, Except.bind, apply, around, setObject]
  · simp [places, placesL, ownOf]

end Verif.Props

import Verif.Lemmas.NonDominated
import Mathlib.Order.Defs.LinearOrder
import Mathlib.Algebra.Order.Ring.Int
import Mathlib.Data.List.Perm.Subperm
/-
Property theorems C21-C23 (pybrain/tools/nondominated.py, multiobjective/nsga2.py).
-/
namespace Verif.Props
open Verif.NonDom Verif.NonDom.Spec
set_option linter.unusedSectionVars false

variable {α K : Type} [DecidableEq α] [LinearOrder K]

/-! ### C21  The front -/

/-- `R` holds exactly the items that no item beats in every objective. -/
def Exact (dim : Nat) (key : α → Nat → K) (items R : List α) : Prop :=
  R.Nodup ∧ ∀ x, x ∈ R ↔ x ∈ items ∧ ∀ y ∈ items, ¬ Better dim (key y) (key x)

/-- `R` holds one representative of every objective vector that is optimal in the sense of Pareto (no item is at least as
good everywhere and better somewhere), and nothing else. -/
def OneOfEach (dim : Nat) (key : α → Nat → K) (items R : List α) : Prop :=
  R.Nodup ∧ (∀ x ∈ R, x ∈ items ∧ ∀ y ∈ items, AtLeast dim (key y) (key x) → AtLeast dim (key x) (key y)) ∧
  (∀ x ∈ items, (∀ y ∈ items, AtLeast dim (key y) (key x) → AtLeast dim (key x) (key y)) →
    ∃ r ∈ R, (∀ k, k < dim → key r k = key x k) ∧ ∀ s ∈ R, (∀ k, k < dim → key s k = key x k) → s = r)

theorem exact_of_front {dim : Nat} (hd : 0 < dim) {key : α → Nat → K} {items R : List α}
    (h : IsFront (fun a b => Better dim (key a) (key b)) items R) : Exact dim key items R := by
  refine ⟨h.nodup, fun x => ⟨fun hx => ⟨h.sub x hx, fun y hy hb => ?_⟩, fun ⟨hx, hn⟩ => ?_⟩⟩
  · have irr : ∀ z, ¬ Better dim (key z) (key z) := fun z hz => lt_irrefl _ (hz 0 hd)
    by_cases hyR : y ∈ R
    · exact h.indep y hyR x hx (fun he => irr x (he ▸ hb)) hb
    · obtain ⟨z, hz, hzb⟩ := h.covers y hy hyR
      have hzx : Better dim (key z) (key x) := fun k hk => lt_trans (hzb k hk) (hb k hk)
      exact h.indep z hz x hx (fun he => irr x (he ▸ hzx)) hzx
  · by_contra hxR
    obtain ⟨y, hy, hb⟩ := h.covers x hx hxR
    exact hn y (h.sub y hy) hb

theorem oneOfEach_of_front {dim : Nat} {key : α → Nat → K} {items R : List α}
    (h : IsFront (fun a b => AtLeast dim (key a) (key b)) items R) : OneOfEach dim key items R := by
  refine ⟨h.nodup, fun x hx => ⟨h.sub x hx, fun y hy hb => ?_⟩, fun x hx hopt => ?_⟩
  · by_cases hyR : y ∈ R
    · by_cases he : y = x
      · subst he; exact fun k _ => le_refl _
      · exact absurd hb (h.indep y hyR x hx he)
    · obtain ⟨z, hz, hzb⟩ := h.covers y hy hyR
      have hzx : AtLeast dim (key z) (key x) := fun k hk => le_trans (hzb k hk) (hb k hk)
      by_cases he : z = x
      · subst he; exact hzb
      · exact absurd hzx (h.indep z hz x hx he)
  · have hr : ∃ r ∈ R, AtLeast dim (key r) (key x) := by
      by_cases hxR : x ∈ R
      · exact ⟨x, hxR, fun k _ => le_refl _⟩
      · exact h.covers x hx hxR
    obtain ⟨r, hr, hrx⟩ := hr
    have hxr := hopt r (h.sub r hr) hrx
    refine ⟨r, hr, fun k hk => le_antisymm (hrx k hk) (hxr k hk), fun s hs hse => ?_⟩
    by_contra hne
    refine h.indep s hs r hr hne (fun k hk => ?_)
    rw [hse k hk]; exact hxr k hk

/-- the relation used by all versions -/
abbrev rel (dim : Nat) (key : α → Nat → K) (eq : Bool) : α → α → Prop :=
  fun a b => if eq then Better dim (key a) (key b) else AtLeast dim (key a) (key b)

theorem front_old (dim : Nat) (key : α → Nat → K) (eq : Bool) (σ : List α → List α) (hσ : ∀ l, (σ l).Perm l) (items : List α) :
    IsFront (rel dim key eq) items (frontOld dim key eq σ items) := by
  have := frontSet_spec (fun i j => domOld dim eq (key i) (key j)) (fun a b c h1 h2 => by
    rw [domOld_iff] at *; exact rel_trans dim eq _ _ _ h1 h2) σ hσ items
  simpa only [domOld_iff, frontOld, rel] using this

theorem front_fast (dim : Nat) (key : α → Nat → K) (eq : Bool) (σ : List α → List α) (hσ : ∀ l, (σ l).Perm l) (items : List α) :
    IsFront (rel dim key eq) items (frontFast dim key eq σ items) := by
  have := frontSet_spec (fun i j => domFast dim eq (key i) (key j)) (fun a b c h1 h2 => by
    rw [domFast_iff] at *; exact rel_trans dim eq _ _ _ h1 h2) σ hσ items
  simpa only [domFast_iff, frontFast, rel] using this

theorem front_arr (dim : Nat) (key : α → Nat → K) (eq : Bool) (σi : List Nat → List Nat) (hσi : ∀ l, (σi l).Perm l) (items : List α) :
    IsFront (rel dim key eq) items (frontArr dim key eq σi items) := by
  have := frontOn_spec (fun i j => domArr dim eq (key i) (key j)) (fun a b c h1 h2 => by
    rw [domArr_iff] at *; exact rel_trans dim eq _ _ _ h1 h2) σi hσi items
  simpa only [domArr_iff, frontArr] using this

theorem rel_tr (dim : Nat) (key : α → Nat → K) (eq : Bool) (a b c : α) (h1 : rel dim key eq a b) (h2 : rel dim key eq b c) :
    rel dim key eq a c := rel_trans dim eq _ _ _ h1 h2

theorem front_merge (dim : Nat) (key : α → Nat → K) (eq : Bool) (t : Nat) (ht : 1 ≤ t) (base : List α → List α)
    (hb : ∀ l, IsFront (rel dim key eq) l (base l)) (σ : List α → List α) (hσ : ∀ l, (σ l).Perm l) (fuel : Nat) (items : List α)
    (hf : items.length < fuel) : ∃ R, frontMerge t base σ fuel items = some R ∧ IsFront (rel dim key eq) items R := by
  obtain ⟨R, hR⟩ := frontMerge_total t ht base σ hσ fuel items hf
  exact ⟨R, hR, frontMerge_spec (rel_tr dim key eq) t base hb σ hσ fuel items R hR⟩

/-- **C21, allowequality=True.** All five versions of the non-dominated front, whatever the order in which the sets are
traversed, end and return exactly the items that no other item beats in every objective; in particular they agree. -/
theorem C21_front (dim : Nat) (hd : 0 < dim) (key : α → Nat → K) (σ : List α → List α) (hσ : ∀ l, (σ l).Perm l)
    (σi : List Nat → List Nat) (hσi : ∀ l, (σi l).Perm l) (items : List α) (fuel : Nat) (hf : items.length < fuel) :
    Exact dim key items (frontOld dim key true σ items) ∧ Exact dim key items (frontFast dim key true σ items) ∧
    Exact dim key items (frontArr dim key true σi items) ∧
    (∃ R, frontMerge 20 (frontFast dim key true σ) σ fuel items = some R ∧ Exact dim key items R) ∧
    (∃ R, frontMerge 100 (frontArr dim key true σi) σ fuel items = some R ∧ Exact dim key items R) := by
  refine ⟨exact_of_front hd (front_old dim key true σ hσ items), exact_of_front hd (front_fast dim key true σ hσ items),
    exact_of_front hd (front_arr dim key true σi hσi items), ?_, ?_⟩
  · obtain ⟨R, h1, h2⟩ := front_merge dim key true 20 (by omega) _ (front_fast dim key true σ hσ) σ hσ fuel items hf
    exact ⟨R, h1, exact_of_front hd h2⟩
  · obtain ⟨R, h1, h2⟩ := front_merge dim key true 100 (by omega) _ (front_arr dim key true σi hσi) σ hσ fuel items hf
    exact ⟨R, h1, exact_of_front hd h2⟩

/-- **C21, allowequality=False.** All five versions return one representative of every Pareto-optimal objective vector and
nothing else. -/
theorem C21_front_no_equality (dim : Nat) (key : α → Nat → K) (σ : List α → List α) (hσ : ∀ l, (σ l).Perm l)
    (σi : List Nat → List Nat) (hσi : ∀ l, (σi l).Perm l) (items : List α) (fuel : Nat) (hf : items.length < fuel) :
    OneOfEach dim key items (frontOld dim key false σ items) ∧ OneOfEach dim key items (frontFast dim key false σ items) ∧
    OneOfEach dim key items (frontArr dim key false σi items) ∧
    (∃ R, frontMerge 20 (frontFast dim key false σ) σ fuel items = some R ∧ OneOfEach dim key items R) ∧
    (∃ R, frontMerge 100 (frontArr dim key false σi) σ fuel items = some R ∧ OneOfEach dim key items R) := by
  refine ⟨oneOfEach_of_front (front_old dim key false σ hσ items), oneOfEach_of_front (front_fast dim key false σ hσ items),
    oneOfEach_of_front (front_arr dim key false σi hσi items), ?_, ?_⟩
  · obtain ⟨R, h1, h2⟩ := front_merge dim key false 20 (by omega) _ (front_fast dim key false σ hσ) σ hσ fuel items hf
    exact ⟨R, h1, oneOfEach_of_front h2⟩
  · obtain ⟨R, h1, h2⟩ := front_merge dim key false 100 (by omega) _ (front_arr dim key false σi hσi) σ hσ fuel items hf
    exact ⟨R, h1, oneOfEach_of_front h2⟩

/-- objectives of four sample items -/
def exKey : Nat → Nat → Int
  | 0, 0 => 1 | 0, _ => 5 | 1, 0 => 3 | 1, _ => 3 | 2, 0 => 4 | 2, _ => 4 | _, 0 => 3 | _, _ => 3

example : frontArr 2 exKey true id [0, 1, 2, 3] = [0, 1, 3] ∧ frontArr 2 exKey false id [0, 1, 2, 3] = [0, 1] ∧
    frontOld 2 exKey true List.reverse [0, 1, 2, 3, 0] = [3, 1, 0] := by decide +kernel

/-! ### Constrained fronts -/

/-- the intended preference between candidates with constraints: feasible ones are compared by their objectives, a feasible
one beats an infeasible one, and of two infeasible ones the smaller violation counts -/
def Prefers (dim : Nat) (key : α → Nat → K) (eq : Bool) (feas : α → Bool) (viol : α → K) (a b : α) : Prop :=
  (feas a = true ∧ feas b = true ∧ rel dim key eq a b) ∨ (feas a = true ∧ feas b = false) ∨
  (feas a = false ∧ feas b = false ∧ viol a ≤ viol b)

omit [DecidableEq α] in
theorem domConst_iff (dim : Nat) (eq : Bool) (key : α → Nat → K) (feas : α → Bool) (viol : α → K) (a b : α) :
    domConst dim eq key feas viol a b = true ↔ Prefers dim key eq feas viol a b := by
  unfold domConst Prefers
  have h := domArr_iff dim eq (key a) (key b)
  cases ha : feas a <;> cases hb : feas b <;> simp [h, rel]

omit [DecidableEq α] in
theorem prefers_trans (dim : Nat) (key : α → Nat → K) (eq : Bool) (feas : α → Bool) (viol : α → K) (a b c : α)
    (h1 : Prefers dim key eq feas viol a b) (h2 : Prefers dim key eq feas viol b c) : Prefers dim key eq feas viol a c := by
  unfold Prefers at *
  rcases h1 with ⟨x1, x2, x3⟩ | ⟨x1, x2⟩ | ⟨x1, x2, x3⟩ <;> rcases h2 with ⟨y1, y2, y3⟩ | ⟨y1, y2⟩ | ⟨y1, y2, y3⟩ <;>
    simp_all
  · exact rel_trans dim eq _ _ _ x3 y3
  · exact le_trans x3 y3

/-- the constrained front, `const_non_dominated_front` -/
def constFront (dim : Nat) (key : α → Nat → K) (eq : Bool) (feas : α → Bool) (viol : α → K) (σ : List α → List α)
    (σi : List Nat → List Nat) (fuel : Nat) (items : List α) : Option (List α) :=
  frontMerge 100 (frontOn (domConst dim eq key feas viol) σi) σ fuel items

theorem front_const (dim : Nat) (key : α → Nat → K) (eq : Bool) (feas : α → Bool) (viol : α → K) (σ : List α → List α)
    (hσ : ∀ l, (σ l).Perm l) (σi : List Nat → List Nat) (hσi : ∀ l, (σi l).Perm l) (items : List α) (fuel : Nat)
    (hf : items.length < fuel) :
    ∃ R, constFront dim key eq feas viol σ σi fuel items = some R ∧ IsFront (Prefers dim key eq feas viol) items R := by
  obtain ⟨R, hR⟩ := frontMerge_total 100 (by omega) (frontOn (domConst dim eq key feas viol) σi) σ hσ fuel items hf
  refine ⟨R, hR, frontMerge_spec (prefers_trans dim key eq feas viol) 100 _ (fun l => ?_) σ hσ fuel items R hR⟩
  have := frontOn_spec (domConst dim eq key feas viol) (fun a b c h1 h2 => by
    rw [domConst_iff] at *; exact prefers_trans dim key eq feas viol a b c h1 h2) σi hσi l
  simpa only [domConst_iff] using this

theorem constrained_of_front {dim : Nat} (hd : 0 < dim) {key : α → Nat → K} {feas : α → Bool} {viol : α → K} {items R : List α}
    (h : IsFront (Prefers dim key true feas viol) items R) :
    ((∃ x ∈ items, feas x = true) → Exact dim key (items.filter feas) R) ∧
      ((∀ x ∈ items, feas x = false) → items ≠ [] → ∃ r ∈ items, R = [r] ∧ ∀ x ∈ items, viol r ≤ viol x) := by
  refine ⟨fun ⟨w, hw, hwf⟩ => ?_, fun hall hne => ?_⟩
  · have hfeas : ∀ x ∈ R, feas x = true := by
      intro x hx
      by_contra hxf
      have hxf : feas x = false := by simpa using hxf
      by_cases hwR : w ∈ R
      · exact h.indep w hwR x hx (fun he => by rw [he, hxf] at hwf; simp at hwf) (Or.inr (Or.inl ⟨hwf, hxf⟩))
      · obtain ⟨y, hy, hp⟩ := h.covers w hw hwR
        have hyf : feas y = true := by
          rcases hp with ⟨a, _, _⟩ | ⟨a, _⟩ | ⟨_, b, _⟩
          · exact a
          · exact a
          · rw [hwf] at b; simp at b
        exact h.indep y hy x hx (fun he => by rw [he, hxf] at hyf; simp at hyf) (Or.inr (Or.inl ⟨hyf, hxf⟩))
    refine exact_of_front hd ⟨h.nodup, fun x hx => List.mem_filter.2 ⟨h.sub x hx, hfeas x hx⟩, ?_, ?_⟩
    · intro a ha b hb hab hbt
      exact h.indep a ha b hb hab (Or.inl ⟨hfeas a ha, hfeas b hb, hbt⟩)
    · intro x hx hxR
      obtain ⟨hx1, hx2⟩ := List.mem_filter.1 hx
      obtain ⟨y, hy, hp⟩ := h.covers x hx1 hxR
      refine ⟨y, hy, ?_⟩
      rcases hp with ⟨_, _, b⟩ | ⟨_, b⟩ | ⟨_, b, _⟩
      · exact b
      · rw [hx2] at b; simp at b
      · rw [hx2] at b; simp at b
  · obtain ⟨r, hr⟩ := List.exists_mem_of_ne_nil R (front_nonempty h hne)
    have huniq : ∀ s ∈ R, s = r := by
      intro s hs
      by_contra hsr
      rcases le_total (viol s) (viol r) with hl | hl
      · exact h.indep s hs r hr hsr (Or.inr (Or.inr ⟨hall s (h.sub s hs), hall r (h.sub r hr), hl⟩))
      · exact h.indep r hr s hs (fun he => hsr he.symm) (Or.inr (Or.inr ⟨hall r (h.sub r hr), hall s (h.sub s hs), hl⟩))
    refine ⟨r, h.sub r hr, ?_, ?_⟩
    · have hn := h.nodup
      cases hR : R with
      | nil => rw [hR] at hr; simp at hr
      | cons a t =>
        rw [hR] at huniq hn
        have ha : a = r := huniq a (by simp)
        cases t with
        | nil => rw [ha]
        | cons b t =>
          have hb : b = r := huniq b (by simp)
          rw [List.nodup_cons] at hn
          exact absurd (by rw [ha, hb]; simp) hn.1
    · intro x hx
      by_cases hxR : x ∈ R
      · rw [huniq x hxR]
      · obtain ⟨y, hy, hp⟩ := h.covers x hx hxR
        rw [huniq y hy] at hp
        rcases hp with ⟨a, _, _⟩ | ⟨a, _⟩ | ⟨_, _, b⟩
        · rw [hall r (h.sub r hr)] at a; simp at a
        · rw [hall r (h.sub r hr)] at a; simp at a
        · exact b

/-- **C21, constraints.** With at least one feasible item the constrained front (allowequality=True) is exactly the set of
feasible items that no feasible item beats in every objective; without feasible items it is a single item with the
smallest violation. -/
theorem C21_constrained (dim : Nat) (hd : 0 < dim) (key : α → Nat → K) (feas : α → Bool) (viol : α → K) (σ : List α → List α)
    (hσ : ∀ l, (σ l).Perm l) (σi : List Nat → List Nat) (hσi : ∀ l, (σi l).Perm l) (items : List α) (fuel : Nat)
    (hf : items.length < fuel) :
    ∃ R, constFront dim key true feas viol σ σi fuel items = some R ∧
      ((∃ x ∈ items, feas x = true) → Exact dim key (items.filter feas) R) ∧
      ((∀ x ∈ items, feas x = false) → items ≠ [] → ∃ r ∈ items, R = [r] ∧ ∀ x ∈ items, viol r ≤ viol x) := by
  obtain ⟨R, h1, h⟩ := front_const dim key true feas viol σ hσ σi hσi items fuel hf
  exact ⟨R, h1, constrained_of_front hd h⟩

example : constFront 2 exKey true (fun i => decide (i ≠ 0)) (fun _ => 0) id id 9 [0, 1, 2, 3] = some [1, 3] ∧
    constFront 2 exKey true (fun _ => false) (fun i => ((10 - i : Nat) : Int)) id id 9 [0, 1, 2] = some [2] := by decide +kernel

/-! ### C22  Sorting into fronts -/

theorem length_eraseDups_le' (l : List α) : l.eraseDups.length ≤ l.length :=
  ((nodup_eraseDups' l).subperm (fun _ h => List.mem_eraseDups.1 h)).length_le

/-- What sorting into fronts should give for a relation `dom`: the fronts partition the items, no front is empty, nothing
in a front dominates another member of it, and every item of a later front is dominated by one of the front before. -/
structure SortedFronts (dom : α → α → Prop) (items : List α) (fs : List (List α)) : Prop where
  partition : fs.flatten.Nodup ∧ ∀ x, x ∈ fs.flatten ↔ x ∈ items
  nonempty : ∀ f ∈ fs, f ≠ []
  indep : ∀ f ∈ fs, ∀ a ∈ f, ∀ b ∈ f, a ≠ b → ¬ dom a b
  ranked : ∀ k x, x ∈ fs.getD (k + 1) [] → ∃ y ∈ fs.getD k [], dom y x

theorem ranked_sorted {dom : α → α → Prop} {items : List α} {fs : List (List α)} (h : Ranked dom items fs) :
    SortedFronts dom items fs := by
  induction h with
  | nil => exact ⟨by simp, by simp, by simp, fun k x hx => by simp at hx⟩
  | cons items f fs hne hf _ ih =>
    refine ⟨⟨?_, ?_⟩, ?_, ?_, ?_⟩
    · rw [List.flatten_cons, List.nodup_append]
      refine ⟨hf.nodup, ih.partition.1, fun a ha b hb hab => ?_⟩
      have := (ih.partition.2 b).1 hb
      rw [List.mem_filter] at this
      exact (by simpa using this.2 : b ∉ f) (hab ▸ ha)
    · intro x
      rw [List.flatten_cons, List.mem_append, ih.partition.2 x, List.mem_filter]
      constructor
      · rintro (h | h)
        · exact hf.sub x h
        · exact h.1
      · intro hx
        by_cases hxf : x ∈ f
        · exact Or.inl hxf
        · exact Or.inr ⟨hx, by simpa using hxf⟩
    · intro g hg
      rcases List.mem_cons.1 hg with rfl | hg
      · exact front_nonempty hf hne
      · exact ih.nonempty g hg
    · intro g hg
      rcases List.mem_cons.1 hg with rfl | hg
      · exact hf.indep
      · exact ih.indep g hg
    · intro k x hx
      cases k with
      | zero =>
        simp only [List.getD_cons_zero, List.getD_cons_succ, Nat.zero_add] at hx ⊢
        have hmem : x ∈ fs.flatten := by
          rw [List.mem_flatten]
          cases fs with
          | nil => simp at hx
          | cons g gs => exact ⟨g, by simp, by simpa using hx⟩
        have := (ih.partition.2 x).1 hmem
        rw [List.mem_filter] at this
        exact hf.covers x this.1 (by simpa using this.2)
      | succ k =>
        simp only [List.getD_cons_succ] at hx ⊢
        exact ih.ranked k x hx

/-- **C22.** `non_dominated_sort` ends and sorts the items into fronts; with allowequality=True the first front is exactly the
set of items that none beats in every objective. -/
theorem C22_sort (dim : Nat) (key : α → Nat → K) (eq : Bool) (σ : List α → List α) (hσ : ∀ l, (σ l).Perm l)
    (σi : List Nat → List Nat) (hσi : ∀ l, (σi l).Perm l) (iterable : List α) (n : Nat) (hn : iterable.length ≤ n) :
    ∃ fs, sortLoop (fun l => frontMerge 100 (frontArr dim key eq σi) σ (l.length + 1) l) σ n iterable.eraseDups = some fs ∧
      SortedFronts (rel dim key eq) iterable fs ∧
      (eq = true → 0 < dim → ∀ f, fs.head? = some f → Exact dim key iterable f) := by
  have hlen : iterable.eraseDups.length ≤ n := Nat.le_trans (length_eraseDups_le' iterable) hn
  obtain ⟨fs, h1, h2⟩ := sortLoop_spec (dom := rel dim key eq) (fun l => frontMerge 100 (frontArr dim key eq σi) σ (l.length + 1) l) σ hσ
    (fun l => front_merge dim key eq 100 (by omega) _ (front_arr dim key eq σi hσi) σ hσ (l.length + 1) l (by omega)) n _ hlen
  refine ⟨fs, h1, ?_, ?_⟩
  · have := ranked_sorted h2
    exact ⟨⟨this.partition.1, fun x => by rw [this.partition.2, List.mem_eraseDups]⟩, this.nonempty, this.indep, this.ranked⟩
  · intro he hd f hf
    subst he
    generalize hE : iterable.eraseDups = E at h2
    cases h2 with
    | nil => simp at hf
    | cons _ g gs _ hg _ =>
      simp only [List.head?_cons, Option.some.injEq] at hf
      subst hf
      exact exact_of_front hd (hg.congr_items (fun x => by rw [← hE]; exact List.mem_eraseDups))

/-- **C22, constrained sort.** The same for `const_non_dominated_sort` with the constrained preference. -/
theorem C22_const_sort (dim : Nat) (key : α → Nat → K) (eq : Bool) (feas : α → Bool) (viol : α → K) (σ : List α → List α)
    (hσ : ∀ l, (σ l).Perm l) (σi : List Nat → List Nat) (hσi : ∀ l, (σi l).Perm l) (iterable : List α) (n : Nat)
    (hn : iterable.length ≤ n) :
    ∃ fs, sortLoop (fun l => constFront dim key eq feas viol σ σi (l.length + 1) l) σ n iterable.eraseDups = some fs ∧
      SortedFronts (Prefers dim key eq feas viol) iterable fs := by
  have hlen : iterable.eraseDups.length ≤ n := Nat.le_trans (length_eraseDups_le' iterable) hn
  obtain ⟨fs, h1, h2⟩ := sortLoop_spec (dom := Prefers dim key eq feas viol) (fun l => constFront dim key eq feas viol σ σi (l.length + 1) l) σ hσ
    (fun l => front_const dim key eq feas viol σ hσ σi hσi l (l.length + 1) (by omega)) n _ hlen
  have := ranked_sorted h2
  exact ⟨fs, h1, ⟨this.partition.1, fun x => by rw [this.partition.2, List.mem_eraseDups]⟩, this.nonempty, this.indep, this.ranked⟩

example : sortLoop (fun l => frontMerge 100 (frontArr 2 exKey true id) id (l.length + 1) l) id 4 [0, 1, 2, 3] = some [[0, 1, 3], [2]] := by
  decide +kernel

/-! ### C23  NSGA-II selection -/

/-- the individuals taken from the fronts when `rem` places are left -/
def cutFronts (byCrowd : List α → List α) : Nat → List (List α) → List α
  | _, [] => []
  | rem, f :: fs => if rem = 0 then [] else if f.length > rem then (byCrowd f).take rem else f ++ cutFronts byCrowd (rem - f.length) fs

theorem cutFronts_zero (byCrowd : List α → List α) (fs : List (List α)) : cutFronts byCrowd 0 fs = [] := by
  cases fs <;> simp [cutFronts]

theorem selectLoop_eq (byCrowd : List α → List α) (hb : ∀ l, (byCrowd l).Perm l) (s : Nat) : ∀ (fs : List (List α)) (acc : List α),
    (acc ++ fs.flatten).Nodup → selectLoop byCrowd s fs acc = acc ++ cutFronts byCrowd (s - acc.length) fs := by
  intro fs
  induction fs with
  | nil => intro acc _; simp [selectLoop, cutFronts]
  | cons f fs ih =>
    intro acc hnd
    rw [selectLoop, cutFronts]
    rw [List.flatten_cons, ← List.append_assoc] at hnd
    have hnd2 := hnd
    rw [List.nodup_append] at hnd
    obtain ⟨haf, hfl, hdis⟩ := hnd
    rw [List.nodup_append] at haf
    obtain ⟨ha, hf, hd⟩ := haf
    by_cases hlt : acc.length < s
    · rw [if_pos hlt, if_neg (by omega)]
      have hfilter : ∀ g : List α, (∀ x ∈ g, x ∈ f) → g.filter (fun i => decide (i ∉ acc)) = g := by
        intro g hg
        rw [List.filter_eq_self]
        intro x hx
        simpa using fun hxa => hd x hxa x (hg x hx) rfl
      simp only
      by_cases hbig : f.length > s - acc.length
      · rw [if_pos hbig, if_pos hbig, hfilter _ (fun x hx => (hb f).mem_iff.1 (List.mem_of_mem_take hx))]
        have hl : ((byCrowd f).take (s - acc.length)).length = s - acc.length := by
          rw [List.length_take, (hb f).length_eq]; omega
        cases fs with
        | nil => rw [selectLoop]
        | cons g gs =>
          rw [selectLoop, if_neg (by rw [List.length_append, hl]; omega)]
      · rw [if_neg hbig, if_neg hbig, hfilter _ (fun x hx => hx), ih _ hnd2, List.length_append, List.append_assoc]
        congr 3; omega
    · rw [if_neg hlt, if_pos (by omega)]; simp

theorem cutFronts_spec (byCrowd : List α → List α) (hb : ∀ l, (byCrowd l).Perm l) : ∀ (fs : List (List α)) (rem : Nat), fs.flatten.Nodup →
    (cutFronts byCrowd rem fs).Nodup ∧ (cutFronts byCrowd rem fs).length = min rem fs.flatten.length ∧
    (∀ x ∈ cutFronts byCrowd rem fs, x ∈ fs.flatten) ∧
    (∀ i j x, i < j → x ∈ fs.getD j [] → x ∈ cutFronts byCrowd rem fs → ∀ y ∈ fs.getD i [], y ∈ cutFronts byCrowd rem fs) ∧
    (∀ j a b, a ∈ fs.getD j [] → b ∈ fs.getD j [] → a ∈ cutFronts byCrowd rem fs → b ∉ cutFronts byCrowd rem fs →
      ∃ l1 l2, byCrowd (fs.getD j []) = l1 ++ l2 ∧ a ∈ l1 ∧ b ∈ l2) := by
  intro fs
  induction fs with
  | nil => intro rem _; simp [cutFronts]
  | cons f fs ih =>
    intro rem hnd
    have hnd0 := hnd
    rw [List.flatten_cons, List.nodup_append] at hnd
    obtain ⟨hf, hfl, hdis⟩ := hnd
    have hdis' : ∀ k x, x ∈ fs.getD k [] → x ∉ f := by
      intro k x hx hxf
      refine hdis x hxf x ?_ rfl
      rw [List.mem_flatten]
      rw [List.getD_eq_getElem?_getD] at hx
      cases hk : fs[k]? with
      | none => rw [hk] at hx; simp at hx
      | some g => rw [hk] at hx; exact ⟨g, List.mem_of_getElem? hk, hx⟩
    rw [cutFronts]
    by_cases h0 : rem = 0
    · subst h0
      rw [if_pos rfl]; simp
    · rw [if_neg h0]
      by_cases hbig : f.length > rem
      · rw [if_pos hbig]
        have hsub : ∀ x ∈ (byCrowd f).take rem, x ∈ f := fun x hx => (hb f).mem_iff.1 (List.mem_of_mem_take hx)
        refine ⟨((hb f).nodup_iff.2 hf).take, ?_, ?_, ?_, ?_⟩
        · rw [List.length_take, (hb f).length_eq, List.flatten_cons, List.length_append]; omega
        · intro x hx; rw [List.flatten_cons]; exact List.mem_append_left _ (hsub x hx)
        · intro i j x hij hx hxc
          cases j with
          | zero => omega
          | succ j =>
            rw [List.getD_cons_succ] at hx
            exact absurd (hsub x hxc) (hdis' j x hx)
        · intro j a b ha hb2 hac hbc
          cases j with
          | zero =>
            rw [List.getD_cons_zero] at ha hb2 ⊢
            refine ⟨(byCrowd f).take rem, (byCrowd f).drop rem, (List.take_append_drop _ _).symm, hac, ?_⟩
            have : b ∈ byCrowd f := (hb f).mem_iff.2 hb2
            rw [← List.take_append_drop rem (byCrowd f)] at this
            exact (List.mem_append.1 this).resolve_left hbc
          | succ j =>
            rw [List.getD_cons_succ] at ha
            exact absurd (hsub a hac) (hdis' j a ha)
      · rw [if_neg hbig]
        obtain ⟨i1, i2, i3, i4, i5⟩ := ih (rem - f.length) hfl
        refine ⟨?_, ?_, ?_, ?_, ?_⟩
        · rw [List.nodup_append]
          exact ⟨hf, i1, fun a ha b hb => hdis a ha b (i3 b hb)⟩
        · rw [List.length_append, i2, List.flatten_cons, List.length_append]; omega
        · intro x hx
          rw [List.flatten_cons]
          rcases List.mem_append.1 hx with hx | hx
          · exact List.mem_append_left _ hx
          · exact List.mem_append_right _ (i3 x hx)
        · intro i j x hij hx hxc y hy
          cases j with
          | zero => omega
          | succ j =>
            rw [List.getD_cons_succ] at hx
            have hxc' := (List.mem_append.1 hxc).resolve_left (hdis' j x hx)
            cases i with
            | zero => rw [List.getD_cons_zero] at hy; exact List.mem_append_left _ hy
            | succ i =>
              rw [List.getD_cons_succ] at hy
              exact List.mem_append_right _ (i4 i j x (by omega) hx hxc' y hy)
        · intro j a b ha hb2 hac hbc
          cases j with
          | zero =>
            rw [List.getD_cons_zero] at hb2
            exact absurd (List.mem_append_left _ hb2) hbc
          | succ j =>
            rw [List.getD_cons_succ] at ha hb2 ⊢
            exact i5 j a b ha hb2 ((List.mem_append.1 hac).resolve_left (hdis' j a ha))
              (fun hh => hbc (List.mem_append_right _ hh))

/-- **C23.** Given the fronts of a population (C22), `nsga2select` returns as many distinct members as requested (all, if there
are fewer), takes nothing from a front before all better fronts are taken completely, and in the front that is cut keeps
those with the larger crowding distance. -/
theorem C23_select {C : Type} [LinearOrder C] (dom : α → α → Prop) (population : List α) (fs : List (List α))
    (hfs : SortedFronts dom population fs) (crowd : List α → α → C) (survivors : Nat) :
    let R := nsga2select (fun f => f.mergeSort (fun a b => decide (crowd f b ≤ crowd f a))) survivors fs
    R.Nodup ∧ R.length = min survivors population.eraseDups.length ∧ (∀ x ∈ R, x ∈ population) ∧
    (∀ i j x, i < j → x ∈ fs.getD j [] → x ∈ R → ∀ y ∈ fs.getD i [], y ∈ R) ∧
    (∀ j a b, a ∈ fs.getD j [] → b ∈ fs.getD j [] → a ∈ R → b ∉ R → crowd (fs.getD j []) b ≤ crowd (fs.getD j []) a) := by
  intro R
  have hb : ∀ l : List α, (l.mergeSort (fun a b => decide (crowd l b ≤ crowd l a))).Perm l := fun l => List.mergeSort_perm _ _
  have hR : R = cutFronts (fun f => f.mergeSort (fun a b => decide (crowd f b ≤ crowd f a))) survivors fs := by
    have := selectLoop_eq (fun f => f.mergeSort (fun a b => decide (crowd f b ≤ crowd f a))) hb survivors fs [] (by simpa using hfs.partition.1)
    simpa [R, nsga2select] using this
  obtain ⟨i1, i2, i3, i4, i5⟩ := cutFronts_spec (fun f => f.mergeSort (fun a b => decide (crowd f b ≤ crowd f a))) hb fs survivors hfs.partition.1
  rw [hR]
  refine ⟨i1, ?_, fun x hx => (hfs.partition.2 x).1 (i3 x hx), i4, ?_⟩
  · rw [i2]
    congr 1
    apply List.Perm.length_eq
    rw [List.perm_ext_iff_of_nodup hfs.partition.1 (nodup_eraseDups' population)]
    intro x
    rw [hfs.partition.2, List.mem_eraseDups]
  · intro j a b ha hb2 hac hbc
    obtain ⟨l1, l2, he, h1, h2⟩ := i5 j a b ha hb2 hac hbc
    have hs : ((fs.getD j []).mergeSort (fun x y => decide (crowd (fs.getD j []) y ≤ crowd (fs.getD j []) x))).Pairwise
        (fun x y => decide (crowd (fs.getD j []) y ≤ crowd (fs.getD j []) x) = true) :=
      List.pairwise_mergeSort (fun x y z hxy hyz => by
        simp only [decide_eq_true_eq] at *; exact le_trans hyz hxy) (fun x y => by
        simp only [Bool.or_eq_true, decide_eq_true_eq]; exact le_total _ _) _
    rw [he, List.pairwise_append] at hs
    simpa using hs.2.2 a h1 b h2

example : cutFronts (fun l => l) 3 [[0, 1], [2, 3], [4]] = [0, 1, 2] := by decide

end Verif.Props

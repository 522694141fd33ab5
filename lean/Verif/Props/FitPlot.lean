import Verif.Model.FitPlot
import Verif.Props.Utilities
import Mathlib.Algebra.Order.Field.Rat
import Mathlib.Data.List.GetD
import Mathlib.Tactic.Linarith
import Mathlib.Tactic.Ring
import Mathlib.Tactic.NormNum
/-!
C191: curves of fitness progression.
-/
namespace Verif.FitPlot
open Verif.Util
open Verif.DataSet (Err)

variable {N K : Type} [Field K] [LinearOrder K]

omit [Field K] [LinearOrder K] in
theorem cut_spec (hit : K → Bool) (l : List K) :
    ((∀ x ∈ l, hit x = false) ∧ cut hit l = l) ∨ ∃ a x b, l = a ++ x :: b ∧ (∀ y ∈ a, hit y = false) ∧ hit x = true ∧ cut hit l = a ++ [x] := by
  induction l with
  | nil => exact Or.inl ⟨by simp, rfl⟩
  | cons z l ih =>
    by_cases hz : hit z = true
    · exact Or.inr ⟨[], z, l, rfl, by simp, hz, by simp [cut, hz]⟩
    · rcases ih with ⟨h1, h2⟩ | ⟨a, x, b, h1, h2, h3, h4⟩
      · left
        refine ⟨?_, by simp [cut, hz, h2]⟩
        intro x hx
        rcases List.mem_cons.1 hx with e | e
        · rw [e]; simpa using hz
        · exact h1 x e
      · right
        refine ⟨z :: a, x, b, by rw [h1]; rfl, ?_, h3, by simp [cut, hz, h4]⟩
        intro y hy
        rcases List.mem_cons.1 hy with e | e
        · rw [e]; simpa using hz
        · exact h2 y e

omit [Field K] in
/-- runs that are cut at the target reach the levels above it at the same time -/
theorem firstAt_cut (hit : K → Bool) (t : K) (ht : ∀ x, hit x = true → x ≤ t) (n : Nat) (l : List K) : Spec.firstAt (cut hit l) t n = Spec.firstAt l t n := by
  unfold Spec.firstAt
  have key : ((cut hit l).findIdx? fun x => decide (x ≤ t)) = l.findIdx? fun x => decide (x ≤ t) := by
    induction l with
    | nil => rfl
    | cons z l ih =>
      by_cases hz : hit z = true
      · have := ht z hz
        simp [cut, hz, List.findIdx?_cons, this]
      · simp only [cut, hz, List.findIdx?_cons, ih]
        simp [List.findIdx?_cons, ih]
  rw [key]

omit [Field K] in
theorem foldl_max_spec (l : List K) (x : K) : l.foldl max x ∈ x :: l ∧ ∀ y ∈ x :: l, y ≤ l.foldl max x := by
  induction l generalizing x with
  | nil => simp
  | cons z l ih =>
    obtain ⟨h1, h2⟩ := ih (max x z)
    rw [List.foldl_cons]
    refine ⟨?_, ?_⟩
    · rcases List.mem_cons.1 h1 with h | h
      · rw [h]; rcases max_choice x z with c | c <;> simp [c]
      · simp [h]
    · intro y hy
      have h3 := h2 (max x z) (by simp)
      rcases List.mem_cons.1 hy with e | e
      · rw [e]; exact le_trans (le_max_left _ _) h3
      · rcases List.mem_cons.1 e with e | e
        · rw [e]; exact le_trans (le_max_right _ _) h3
        · exact h2 y (by simp [e])

theorem maxOf_spec (l : List K) (h : l ≠ []) : maxOf l ∈ l ∧ ∀ y ∈ l, y ≤ maxOf l := by
  cases l with
  | nil => exact absurd rfl h
  | cons x l => exact foldl_max_spec l x

theorem worst_spec (runs : List (List K)) (h : runs ≠ []) (hr : ∀ l ∈ runs, l ≠ []) : (∃ l ∈ runs, worst runs ∈ l) ∧ ∀ l ∈ runs, ∀ x ∈ l, x ≤ worst runs := by
  obtain ⟨h1, h2⟩ := maxOf_spec (runs.map maxOf) (by simpa using h)
  constructor
  · obtain ⟨l, hl, e⟩ := List.mem_map.1 h1
    exact ⟨l, hl, by unfold worst; rw [← e]; exact (maxOf_spec l (hr l hl)).1⟩
  · intro l hl x hx
    exact le_trans ((maxOf_spec l (hr l hl)).2 x hx) (h2 _ (List.mem_map.2 ⟨l, hl, rfl⟩))

/-- sums of rows of the same length -/
theorem foldl_addRows (n : Nat) (f : List K → List K) : ∀ (ls : List (List K)) (s : List K), s.length = n → (∀ l ∈ ls, (f l).length = n) →
    (ls.foldl (fun s l => addRows s (f l)) s).length = n ∧ ∀ j, j < n → (ls.foldl (fun s l => addRows s (f l)) s).getD j 0 = s.getD j 0 + (ls.map fun l => (f l).getD j 0).sum
  | [], s, hs, _ => ⟨hs, fun j _ => by simp⟩
  | l :: ls, s, hs, hl => by
    have h1 : (addRows s (f l)).length = n := by
      unfold addRows
      rw [List.length_zipWith, hs, hl l (by simp)]; simp
    obtain ⟨g1, g2⟩ := foldl_addRows n f ls (addRows s (f l)) h1 fun l' h' => hl l' (by simp [h'])
    refine ⟨g1, ?_⟩
    intro j hj
    rw [List.foldl_cons, g2 j hj]
    have e : (addRows s (f l)).getD j 0 = s.getD j 0 + (f l).getD j 0 := by
      have e1 : j < s.length := by omega
      have e2 : j < (f l).length := by rw [hl l (by simp)]; exact hj
      have e3 : j < (addRows s (f l)).length := by omega
      rw [List.getD_eq_getElem _ _ e1, List.getD_eq_getElem _ _ e2, List.getD_eq_getElem _ _ e3]
      simp [addRows]
    rw [e, List.map_cons, List.sum_cons, add_assoc]

variable [IsStrictOrderedRing K]

omit [Field K] [LinearOrder K] [IsStrictOrderedRing K] in
theorem pairwise_reverse_map {α : Type} (r : K → K → Prop) (f : α → K) (l : List α) (s : α → α → Prop) (hs : l.Pairwise s) (h : ∀ a b, s a b → r (f b) (f a)) : (l.map f).reverse.Pairwise r := by
  rw [List.pairwise_reverse, List.pairwise_map]
  exact hs.imp fun {a b} hab => h a b hab

theorem level_mono (o : Opts K) (hres : 0 < o.resolution) (w c : K) (hw : c ≤ w) (hp : o.semilog = true → o.log10 c ≤ o.log10 w ∧ ∀ x y, x ≤ y → o.power10 x ≤ o.power10 y) (i j : Nat) (hij : i ≤ j) :
    level o w c i ≤ level o w c j := by
  have hr : (0 : K) < (o.resolution : K) := by exact_mod_cast hres
  have hd : (i : K) / (o.resolution : K) ≤ (j : K) / (o.resolution : K) := by
    apply div_le_div_of_nonneg_right _ hr.le
    exact_mod_cast hij
  unfold level
  split
  · rename_i hs
    obtain ⟨h1, h2⟩ := hp hs
    apply h2
    have := mul_le_mul_of_nonneg_right hd (sub_nonneg.2 h1)
    linarith
  · have := mul_le_mul_of_nonneg_right hd (sub_nonneg.2 hw)
    linarith

omit [LinearOrder K] in
omit [IsStrictOrderedRing K] in
theorem level_ends [CharZero K] (o : Opts K) (hres : 0 < o.resolution) (w c : K) (hp : o.semilog = true → o.power10 (o.log10 c) = c ∧ o.power10 (o.log10 w) = w) :
    level o w c 0 = c ∧ level o w c o.resolution = w := by
  have hr : (o.resolution : K) ≠ 0 := by exact_mod_cast hres.ne'
  unfold level
  split
  · rename_i hs
    obtain ⟨h1, h2⟩ := hp hs
    constructor
    · simp [h1]
    · rw [div_self hr, one_mul, sub_add_cancel, h2]
  · constructor
    · simp
    · rw [div_self hr, one_mul, sub_add_cancel]

theorem sum_bounds (lo hi : K) : ∀ (l : List K), (∀ x ∈ l, lo ≤ x ∧ x ≤ hi) → (l.length : K) * lo ≤ l.sum ∧ l.sum ≤ (l.length : K) * hi
  | [], _ => by simp
  | x :: l, h => by
    obtain ⟨h1, h2⟩ := sum_bounds lo hi l fun y hy => h y (by simp [hy])
    obtain ⟨h3, h4⟩ := h x (by simp)
    rw [List.length_cons, List.sum_cons]
    push_cast
    constructor <;> linarith [add_mul (l.length : K) 1 lo, add_mul (l.length : K) 1 hi]

theorem mean_bounds (lo hi : K) (l : List K) (hne : l ≠ []) (h : ∀ x ∈ l, lo ≤ x ∧ x ≤ hi) : lo ≤ l.sum / (l.length : K) ∧ l.sum / (l.length : K) ≤ hi := by
  obtain ⟨h1, h2⟩ := sum_bounds lo hi l h
  have hp : (0 : K) < (l.length : K) := by exact_mod_cast List.length_pos_iff.2 hne
  constructor
  · rw [le_div_iff₀ hp]; linarith [mul_comm lo (l.length : K)]
  · rw [div_le_iff₀ hp]; linarith [mul_comm hi (l.length : K)]

omit [Field K] [LinearOrder K] [IsStrictOrderedRing K] in
theorem foldl_max_const (n : Nat) : ∀ (l : List Nat) (x : Nat), x ≤ n → (∀ y ∈ l, y = n) → l ≠ [] → l.foldl max x = n
  | [], _, _, _, h => absurd rfl h
  | [y], x, hx, hy, _ => by
    have := hy y (by simp)
    simp only [List.foldl_cons, List.foldl_nil]
    omega
  | y :: z :: l, x, hx, hy, _ => by
    have := hy y (by simp)
    rw [List.foldl_cons]
    exact foldl_max_const n (z :: l) (max x y) (by omega) (fun w hw => hy w (by simp only [List.mem_cons] at hw ⊢; exact Or.inr hw)) (by simp)

end Verif.FitPlot

namespace Verif.Props
open Verif.Util Verif.FitPlot
open Verif.DataSet (Err)

variable {N K : Type} [Field K] [LinearOrder K] [IsStrictOrderedRing K]

/-- **C191, evaluations.** With averaging over evaluations (for minimisation) the curve of an item has one point more than the resolution says. Their fitnesses fall from the largest one in the runs, up to their ends or where they reach the
target, to the target, and each is put at the average number of evaluations at which the *whole* runs have reached it for the first time; runs that do not count as long as the longest of the runs. With the option for successful runs only
those that reach the target are used. -/
theorem C191_evaluations (o : Opts K) (batch : ℚ) (runs : List (List K)) (c : K) (hc : o.cutoff = some c) (hm : o.minimize = true) (he : o.overEvaluations = true) (hres : 0 < o.resolution)
    (kept : List (List K)) (hkept : kept = if o.onlySuccessful then runs.filter (fun l => ∃ x ∈ l, x ≤ c) else runs) (hne : kept ≠ []) (hr : ∀ l ∈ runs, l ≠ []) (hbig : ∃ l ∈ kept, ∃ x, l.head? = some x ∧ c ≤ x)
    (hp : o.semilog = true → (∀ x y, c ≤ x → x ≤ y → o.log10 x ≤ o.log10 y) ∧ (∀ x y, x ≤ y → o.power10 x ≤ o.power10 y) ∧ ∀ x, c ≤ x → o.power10 (o.log10 x) = x) :
    ∃ (levels : List K) (longest : Nat) (w : K), curve o batch runs = .ok (some (levels.map fun t => (kept.map fun l => (Spec.firstAt l t longest : ℚ)).sum / kept.length * batch, levels)) ∧
      levels.length = o.resolution + 1 ∧ levels.Pairwise (· ≥ ·) ∧ levels.head? = some w ∧ levels.getLast? = some c ∧
      ((∃ l ∈ kept, w ∈ relevantPart o l) ∧ ∀ l ∈ kept, ∀ x ∈ relevantPart o l, x ≤ w) ∧
      (∃ l ∈ kept, (relevantPart o l).length = longest) ∧ ∀ l ∈ kept, (relevantPart o l).length ≤ longest := by
  have hused : used o runs = kept.map (relevantPart o) := by
    unfold used
    rw [hc]
    simp only
    rw [hkept]
    congr 1
    split
    · apply List.filter_congr
      intro l _
      unfold isSuccessful
      rw [hc]
      have hreach : reached o.minimize c = fun x => decide (x ≤ c) := by funext x; simp [reached, hm]
      simp only [hreach]
      rw [Bool.eq_iff_iff]
      simp
    · rfl
  have hk : kept.Sublist runs := by
    rw [hkept]
    split
    · exact List.filter_sublist
    · exact List.Sublist.refl _
  have hkr : ∀ l ∈ kept, l ≠ [] := fun l hl => hr l (hk.subset hl)
  have hrel : ∀ l, relevantPart o l = cut (reached true c) l := by intro l; unfold relevantPart; rw [hc, hm]
  have hrel_ne : ∀ l ∈ kept.map (relevantPart o), l ≠ [] := by
    intro l hl
    obtain ⟨l0, h0, e⟩ := List.mem_map.1 hl
    rw [hrel] at e
    rcases cut_spec (reached true c) l0 with ⟨-, h2⟩ | ⟨a, x, b, -, -, -, h4⟩
    · rw [← e, h2]; exact hkr l0 h0
    · rw [← e, h4]; simp
  have hmne : kept.map (relevantPart o) ≠ [] := by simpa using hne
  obtain ⟨⟨lw, hlw1, hlw2⟩, hw2⟩ := worst_spec (kept.map (relevantPart o)) hmne hrel_ne
  have hcw : c ≤ worst (kept.map (relevantPart o)) := by
    obtain ⟨l, hl, x, hx, hcx⟩ := hbig
    refine le_trans hcx (hw2 _ (List.mem_map.2 ⟨l, hl, rfl⟩) x ?_)
    rw [hrel]
    cases l with
    | nil => simp at hx
    | cons y l =>
      simp at hx
      subst hx
      unfold cut
      split <;> simp
  have hmono : ∀ i j, i ≤ j → level o (worst (kept.map (relevantPart o))) c i ≤ level o (worst (kept.map (relevantPart o))) c j := by
    intro i j hij
    exact level_mono o hres _ _ hcw (fun hs => ⟨(hp hs).1 _ _ (le_refl _) hcw, (hp hs).2.1⟩) i j hij
  obtain ⟨e0, e1⟩ := level_ends o hres (worst (kept.map (relevantPart o))) c fun hs => ⟨(hp hs).2.2 _ (le_refl _), (hp hs).2.2 _ hcw⟩
  generalize hlv : ((List.range (o.resolution + 1)).map (level o (worst (kept.map (relevantPart o))) c)).reverse = levels at *
  have hpw : levels.Pairwise (· ≥ ·) := by
    rw [← hlv]
    exact pairwise_reverse_map _ _ _ (· < ·) List.pairwise_lt_range fun a b hab => hmono a b hab.le
  obtain ⟨longest, ⟨l1, g1, g1'⟩, g2, g3⟩ := C140_found levels hpw (kept.map (relevantPart o)) hmne batch
  have hge : ∀ t ∈ levels, c ≤ t := by
    intro t ht
    rw [← hlv, List.mem_reverse, List.mem_map] at ht
    obtain ⟨i, -, e⟩ := ht
    rw [← e]
    exact le_trans (le_of_eq e0.symm) (hmono 0 i (Nat.zero_le _))
  refine ⟨levels, longest, worst (kept.map (relevantPart o)), ?_, ?_, hpw, ?_, ?_, ⟨?_, ?_⟩, ?_, ?_⟩
  · unfold curve
    simp only [hused, he, hc, if_true]
    rw [if_neg (by simpa using hne), hlv, g3]
    simp only [Except.ok.injEq, Option.some.injEq, Prod.mk.injEq, and_true, List.length_map]
    apply List.map_congr_left
    intro t ht
    congr 3
    rw [List.map_map]
    apply List.map_congr_left
    intro l _
    simp only [Function.comp_apply]
    rw [hrel, firstAt_cut (reached true c) t (fun x hx => le_trans (by simpa [reached] using hx) (hge t ht))]
  · rw [← hlv]; simp
  · rw [← hlv, List.head?_reverse, List.getLast?_map, List.range_succ, List.getLast?_append]
    simp [e1]
  · rw [← hlv, List.getLast?_reverse, List.head?_map, List.range_succ_eq_map]
    simp [e0]
  · obtain ⟨l0, h0, e⟩ := List.mem_map.1 hlw1
    exact ⟨l0, h0, by rw [e]; exact hlw2⟩
  · exact fun l hl x hx => hw2 _ (List.mem_map.2 ⟨l, hl, rfl⟩) x hx
  · obtain ⟨l0, h0, e⟩ := List.mem_map.1 g1
    exact ⟨l0, h0, by rw [e]; exact g1'⟩
  · exact fun l hl => g2 _ (List.mem_map.2 ⟨l, hl, rfl⟩)

/-- options for examples -/
def fitOpts (cutoff : Option ℚ) (minimize overEvaluations onlySuccessful : Bool) (resolution : Nat) : Opts ℚ := ⟨false, cutoff, minimize, overEvaluations, onlySuccessful, resolution, id, id⟩

example : ∃ (levels : List ℚ) (longest : Nat) (w : ℚ), curve (fitOpts (some 1) true true true 2) 10 [[5, 3, 1, 0], [3, 3], [3, 1]] =
      .ok (some (levels.map fun t => ([[5, 3, 1, 0], [3, 1]].map fun l => (Spec.firstAt l t longest : ℚ)).sum / 2 * 10, levels)) ∧ levels.head? = some w := by
  obtain ⟨levels, longest, w, h, -, -, h2, -⟩ := C191_evaluations (fitOpts (some 1) true true true 2) 10 [[5, 3, 1, 0], [3, 3], [3, 1]] 1 rfl rfl rfl (by decide) [[5, 3, 1, 0], [3, 1]]
    (by decide +kernel) (by simp) (by simp) ⟨_, by simp; left; rfl, 5, rfl, by norm_num⟩ (by simp [fitOpts])
  exact ⟨levels, longest, w, h, h2⟩

example : (curve (fitOpts (some 1) true true true 2) 10 [[5, 3, 1, 0], [3, 3], [3, 1]]).toOption = some (some ([0, 5, 15], [5, 3, 1])) := by decide +kernel

/-- **C191, items without a curve.** An item has no curve exactly if it has no runs, or only those that reach the target are used and none does. -/
theorem C191_none (o : Opts K) (batch : ℚ) (runs : List (List K)) (c : K) (hc : o.cutoff = some c) :
    curve o batch runs = .ok none ↔ runs = [] ∨ (o.onlySuccessful = true ∧ ∀ l ∈ runs, ∀ x ∈ l, if o.minimize then c < x else x < c) := by
  have h1 : curve o batch runs = .ok none ↔ (used o runs).length = 0 := by
    unfold curve
    simp only [hc]
    by_cases h : (used o runs).length = 0
    · simp [h]
    · simp only [h, if_false, iff_false]
      split
      · split
        · simp
        · simp
      · simp
  rw [h1]
  unfold used
  rw [hc]
  simp only [List.length_map, List.length_eq_zero_iff]
  have h2 : ∀ l, isSuccessful o l = false ↔ ∀ x ∈ l, if o.minimize then c < x else x < c := by
    intro l
    unfold isSuccessful
    rw [hc]
    simp only [List.any_eq_false]
    apply forall_congr'
    intro x
    apply imp_congr_right
    intro _
    unfold reached
    cases o.minimize <;> simp
  cases hs : o.onlySuccessful with
  | false => simp
  | true =>
    simp only [if_true, List.filter_eq_nil_iff, true_and]
    constructor
    · intro h
      right
      intro l hl
      exact (h2 l).1 (by simpa using h l hl)
    · rintro (h | h)
      · rw [h]; simp
      · intro l hl
        have := (h2 l).2 (h l hl)
        simp [this]

/-- **C191, averages of fitnesses.** If all runs used are equally long, the curve has the average fitness after each number of evaluations, where fitnesses beyond the target count as the target. (Fitnesses are less than `10 ^ 100` in
absolute value.) -/
theorem C191_mean_partial (o : Opts K) (batch : ℚ) (runs : List (List K)) (he : o.overEvaluations = false) (n : Nat) (hne : used o runs ≠ []) (hn : ∀ l ∈ used o runs, l.length = n)
    (hb : ∀ l ∈ used o runs, ∀ x ∈ l, |x| ≤ 10 ^ 100) (hcb : ∀ c, o.cutoff = some c → |c| ≤ 10 ^ 100) :
    ∃ ys : List K, curve o batch runs = .ok (some ((List.range n).map fun (i : Nat) => (i : ℚ) * batch, ys)) ∧ ys.length = n ∧
      ∀ j, j < n → ys.getD j 0 = ((used o runs).map fun l => match o.cutoff with
        | none => l.getD j 0
        | some c => if o.minimize then max (l.getD j 0) c else min (l.getD j 0) c).sum / ((used o runs).length : K) := by
  have hlong : ((used o runs).map List.length).foldl max 0 = n :=
    foldl_max_const n _ 0 (Nat.zero_le _) (fun y hy => by obtain ⟨l, hl, e⟩ := List.mem_map.1 hy; rw [← e]; exact hn l hl) (by simpa using hne)
  have hpl : ∀ l ∈ used o runs, (paddedClipped o l n).length = n := by
    intro l hl
    unfold paddedClipped
    simp [hn l hl]
  obtain ⟨g1, g2⟩ := foldl_addRows n (fun l => paddedClipped o l n) (used o runs) (List.replicate n 0) (by simp) hpl
  have hcl : ∀ x : K, |x| ≤ 10 ^ 100 → clipped o x = match o.cutoff with
        | none => x
        | some c => if o.minimize then max x c else min x c := by
    intro x hx
    unfold clipped
    cases hc : o.cutoff with
    | none => rfl
    | some c =>
      obtain ⟨c1, c2⟩ := abs_le.1 (hcb c hc)
      obtain ⟨x1, x2⟩ := abs_le.1 hx
      simp only
      split
      · exact min_eq_left (max_le x2 c2)
      · rw [max_eq_left x1]
  have hpos : ((used o runs).length : K) ≠ 0 := by
    have : (used o runs).length ≠ 0 := by simpa using hne
    exact_mod_cast this
  refine ⟨paddedClipped o (((used o runs).foldl (fun s l => addRows s (paddedClipped o l n)) (List.replicate n 0)).map (· / ((used o runs).length : K))) n, ?_, ?_, ?_⟩
  · unfold curve
    rw [if_neg (by simpa using hne), he]
    simp only [hlong, Bool.false_eq_true, if_false]
  · unfold paddedClipped at g1 ⊢
    simp only [List.length_append, List.length_map, List.length_replicate] at g1 ⊢
    omega
  · intro j hj
    generalize hS : (used o runs).foldl (fun s l => addRows s (paddedClipped o l n)) (List.replicate n 0) = S at *
    have hSj : j < S.length := by omega
    have e1 : (paddedClipped o (S.map (· / ((used o runs).length : K))) n).getD j 0 = clipped o (S.getD j 0 / ((used o runs).length : K)) := by
      unfold paddedClipped
      rw [List.getD_append _ _ _ _ (by simpa using hSj), List.getD_eq_getElem _ _ (by simpa using hSj), List.getD_eq_getElem _ _ hSj]
      simp
    have hrow : ∀ l ∈ used o runs, (paddedClipped o l n).getD j 0 = clipped o (l.getD j 0) := by
      intro l hl
      have hjl : j < l.length := by rw [hn l hl]; exact hj
      unfold paddedClipped
      rw [List.getD_append _ _ _ _ (by simpa using hjl), List.getD_eq_getElem _ _ (by simpa using hjl), List.getD_eq_getElem _ _ hjl]
      simp
    have hent : ∀ l ∈ used o runs, |l.getD j 0| ≤ 10 ^ 100 := by
      intro l hl
      have hjl : j < l.length := by rw [hn l hl]; exact hj
      rw [List.getD_eq_getElem _ _ hjl]
      exact hb l hl _ (List.getElem_mem hjl)
    have hzero : (List.replicate n (0 : K)).getD j 0 = 0 := by
      rw [List.getD_eq_getElem _ _ (by simpa using hj)]; simp
    rw [e1, g2 j hj, hzero, zero_add]
    have hsum : ((used o runs).map fun l => (paddedClipped o l n).getD j 0) = (used o runs).map fun l => match o.cutoff with
        | none => l.getD j 0
        | some c => if o.minimize then max (l.getD j 0) c else min (l.getD j 0) c := by
      apply List.map_congr_left
      intro l hl
      rw [hrow l hl, hcl _ (hent l hl)]
    rw [hsum]
    generalize hL : ((used o runs).map fun l => match o.cutoff with
        | none => l.getD j 0
        | some c => if o.minimize then max (l.getD j 0) c else min (l.getD j 0) c) = L
    have hLlen : L.length = (used o runs).length := by rw [← hL]; simp
    have hLne : L ≠ [] := by rw [← hL]; simpa using hne
    unfold clipped
    cases hc : o.cutoff with
    | none => rfl
    | some c =>
      obtain ⟨c1, c2⟩ := abs_le.1 (hcb c hc)
      rw [hc] at hL
      simp only
      cases hm : o.minimize with
      | true =>
        simp only [hm, if_true] at hL ⊢
        obtain ⟨b1, b2⟩ := mean_bounds c (10 ^ 100) L hLne (by
          intro x hx
          rw [← hL] at hx
          obtain ⟨l, hl, e⟩ := List.mem_map.1 hx
          rw [← e]
          exact ⟨le_max_right _ _, max_le (abs_le.1 (hent l hl)).2 c2⟩)
        rw [← hLlen, max_eq_left b1, min_eq_left b2]
      | false =>
        simp only [hm, Bool.false_eq_true, if_false] at hL ⊢
        obtain ⟨b1, b2⟩ := mean_bounds (-10 ^ 100) c L hLne (by
          intro x hx
          rw [← hL] at hx
          obtain ⟨l, hl, e⟩ := List.mem_map.1 hx
          rw [← e]
          exact ⟨le_min (abs_le.1 (hent l hl)).1 c1, min_le_right _ _⟩)
        rw [← hLlen, max_eq_left b1, min_eq_left b2]

example : (curve (fitOpts (some 1) true false false 2) 10 [[5, 3, 1, 0], [3, 2, 0, 4]]).toOption = some (some ([0, 10, 20], [4, 5 / 2, 1])) ∧
    ∀ l ∈ used (fitOpts (some 1) true false false 2) [[5, 3, 1, 0], [3, 2, 0, 4]], l.length = 3 := by decide +kernel

/-- **C191 fails for runs of different lengths:** a run that has reached the target counts with the fitness 0 afterwards, and not with the target. Of two runs one reaches the target 1 at once and the other one stays at 5; the average is 3 all the
time, but the curve falls to 5/2. When maximising, the curve falls although no run has got worse. -/
theorem C191_negation_padding : (curve (fitOpts (some 1) true false false 2) 1 [[1], [5, 5, 5]]).toOption = some (some ([0, 1, 2], [3, 5 / 2, 5 / 2])) ∧
    (curve (fitOpts (some 10) false false false 2) 1 [[10], [8, 8, 8]]).toOption = some (some ([0, 1, 2], [9, 4, 4])) := by decide +kernel

/-- **C191 fails for maximisation:** averaged over evaluations (the default) the curve tells when the runs were *below* a fitness. A run that reaches 10 after two evaluations is shown to have it from the beginning. -/
theorem C191_negation_maximize : (curve (fitOpts (some 10) false true false 2) 1 [[0, 5, 10]]).toOption = some (some ([0, 0, 0], [10, 10, 10])) := by decide +kernel

/-- **C191 fails without a target:** averaging over evaluations (the default) raises a TypeError for all runs. -/
theorem C191_negation_target (o : Opts K) (batch : ℚ) (runs : List (List K)) (hc : o.cutoff = none) (he : o.overEvaluations = true) (hr : runs ≠ []) : curve o batch runs = .error .typeError := by
  unfold curve used
  simp only [hc, he, if_true]
  rw [if_neg (by simpa using hr)]

/-- **C191, several items.** If each item has its own number of evaluations between two fitnesses, or none has, the curves are those of the items, sorted by name. -/
theorem C191_items_partial [LinearOrder N] (o : Opts K) (batch : ℚ) (items : List (Item N K)) (h : (∀ it ∈ items, it.batch.isSome) ∨ ∀ it ∈ items, it.batch = none)
    (res : List (N × Curve K)) (hr : progression o batch items = .ok res) :
    (res.map Prod.fst).Pairwise (· ≤ ·) ∧ (∀ q ∈ res, ∃ it ∈ items, it.name = q.1 ∧ curve o (it.batch.getD batch) it.runs = .ok (some q.2)) ∧
      ∀ it ∈ items, ∃ r, curve o (it.batch.getD batch) it.runs = .ok r ∧ ∀ c, r = some c → (it.name, c) ∈ res := by
  have key : ∀ (its : List (Item N K)) (b : ℚ) (res : List (N × Curve K)), ((∀ it ∈ its, it.batch.isSome) ∨ ((∀ it ∈ its, it.batch = none) ∧ b = batch)) → loop o b its = .ok res →
      (res.map Prod.fst).Sublist (its.map Item.name) ∧ (∀ q ∈ res, ∃ it ∈ its, it.name = q.1 ∧ curve o (it.batch.getD batch) it.runs = .ok (some q.2)) ∧
      ∀ it ∈ its, ∃ r, curve o (it.batch.getD batch) it.runs = .ok r ∧ ∀ c, r = some c → (it.name, c) ∈ res := by
    intro its
    induction its with
    | nil =>
      intro b res _ hl
      have : res = [] := (Except.ok.inj hl).symm
      subst this
      exact ⟨List.Sublist.refl _, by simp, by simp⟩
    | cons it its ih =>
      intro b res hh hl
      have hb : it.batch.getD b = it.batch.getD batch := by
        rcases hh with hh | ⟨-, hh⟩
        · obtain ⟨v, hv⟩ := Option.isSome_iff_exists.1 (hh it (by simp))
          rw [hv]; rfl
        · rw [hh]
      have hh' : (∀ it ∈ its, it.batch.isSome) ∨ ((∀ it ∈ its, it.batch = none) ∧ it.batch.getD b = batch) := by
        rcases hh with hh | ⟨hh, hh2⟩
        · exact Or.inl fun i hi => hh i (by simp [hi])
        · refine Or.inr ⟨fun i hi => hh i (by simp [hi]), ?_⟩
          rw [hh it (by simp), hh2]; rfl
      unfold loop at hl
      simp only at hl
      cases hcu : curve o (it.batch.getD b) it.runs with
      | error e => rw [hcu] at hl; exact absurd hl (by simp)
      | ok r =>
        rw [hcu] at hl
        simp only at hl
        cases hlo : loop o (it.batch.getD b) its with
        | error e => rw [hlo] at hl; exact absurd hl (by simp)
        | ok rest =>
          rw [hlo] at hl
          obtain ⟨i1, i2, i3⟩ := ih _ rest hh' hlo
          rw [hb] at hcu
          cases r with
          | none =>
            have : res = rest := (Except.ok.inj hl).symm
            subst this
            refine ⟨i1.cons _, fun q hq => ?_, fun j hj => ?_⟩
            · obtain ⟨j, hj, hj'⟩ := i2 q hq
              exact ⟨j, by simp [hj], hj'⟩
            · rcases List.mem_cons.1 hj with e | e
              · rw [e]; exact ⟨none, hcu, fun c hc => absurd hc (by simp)⟩
              · exact i3 j e
          | some c =>
            have : res = (it.name, c) :: rest := (Except.ok.inj hl).symm
            subst this
            refine ⟨i1.cons₂ _, fun q hq => ?_, fun j hj => ?_⟩
            · rcases List.mem_cons.1 hq with e | e
              · rw [e]; exact ⟨it, by simp, rfl, hcu⟩
              · obtain ⟨j, hj, hj'⟩ := i2 q e
                exact ⟨j, by simp [hj], hj'⟩
            · rcases List.mem_cons.1 hj with e | e
              · rw [e]
                refine ⟨some c, hcu, fun c' hc' => ?_⟩
                rw [← Option.some.inj hc']; simp
              · obtain ⟨r, hr1, hr2⟩ := i3 j e
                exact ⟨r, hr1, fun c' hc' => List.mem_cons_of_mem _ (hr2 c' hc')⟩
  have hmem : ∀ it, it ∈ items.insertionSort (fun a b => a.name ≤ b.name) ↔ it ∈ items := fun it => (List.perm_insertionSort _ items).mem_iff
  obtain ⟨k1, k2, k3⟩ := key (items.insertionSort fun a b => a.name ≤ b.name) batch res (by
    rcases h with h | h
    · exact Or.inl fun it hi => h it ((hmem it).1 hi)
    · exact Or.inr ⟨fun it hi => h it ((hmem it).1 hi), rfl⟩) hr
  refine ⟨?_, fun q hq => ?_, fun it hi => k3 it ((hmem it).2 hi)⟩
  · haveI : Std.Total (fun a b : Item N K => a.name ≤ b.name) := ⟨fun a b => le_total _ _⟩
    haveI : IsTrans (Item N K) (fun a b : Item N K => a.name ≤ b.name) := ⟨fun a b c => le_trans⟩
    have hs := List.pairwise_insertionSort (fun a b : Item N K => a.name ≤ b.name) items
    exact List.Pairwise.sublist k1 (List.pairwise_map.2 hs)
  · obtain ⟨it, hi, h'⟩ := k2 q hq
    exact ⟨it, (hmem it).1 hi, h'⟩

/-- **C191 fails for numbers of evaluations given with some of the items only:** they are used for all following names, too. The runs "b" have one evaluation between two fitnesses, but are drawn with ten. -/
theorem C191_negation_batch : (progression (fitOpts (some 1) true true false 1) 1 [⟨(0 : Nat), some 10, [[3, 1]]⟩, ⟨1, none, [[3, 1]]⟩]).toOption =
    some [(0, ([0, 10], [3, 1])), (1, ([0, 10], [3, 1]))] ∧
    (curve (fitOpts (some 1) true true false 1) 1 [[3, 1]]).toOption = some (some ([0, 1], [3, 1])) := by decide +kernel

end Verif.Props

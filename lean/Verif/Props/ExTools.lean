import Verif.Model.ExTools
import Mathlib.Data.List.GetD
import Mathlib.Tactic.Linarith
import Mathlib.Tactic.Positivity
import Mathlib.Tactic.NormNum
/-
C185: recording and showing the results of experiments.
-/
namespace Verif.ExTools

/-- the averages recorded in a run -/
noncomputable def avgs (run : List (List ℝ)) : List ℝ := run.map fun r => r.sum / r.length

theorem records_own (w : World) (i : Nat) (l : List ℝ) (h : (w.objs i).rl = some l) (run : List (List ℝ)) :
    let w' := run.foldl (fun w r => printOptimizer w i r) w
    w'.rl = w.rl ∧ w'.rll = w.rll ∧ (w'.objs i).rl = some (l ++ avgs run) ∧ (w'.objs i).shown = (w.objs i).shown ∧ ∀ j, j ≠ i → w'.objs j = w.objs j := by
  induction run generalizing w l with
  | nil => exact ⟨rfl, rfl, by simpa [avgs] using h, rfl, fun _ _ => rfl⟩
  | cons r run ih =>
    have e : printOptimizer w i r = { w with objs := put w.objs i { w.objs i with rl := some (l ++ [r.sum / r.length]) } } := by
      rw [printOptimizer, record, h]
    obtain ⟨h1, h2, h3, h4, h5⟩ := ih (printOptimizer w i r) (l ++ [r.sum / r.length]) (by rw [e]; simp [put])
    refine ⟨h1.trans (by rw [e]), h2.trans (by rw [e]), h3.trans (by simp [avgs]), h4.trans (by rw [e]; simp [put]), fun j hj => (h5 j hj).trans (by rw [e]; simp [put, hj])⟩

theorem records_cls (w : World) (i : Nat) (h : (w.objs i).rl = none) (run : List (List ℝ)) :
    run.foldl (fun w r => printOptimizer w i r) w = { w with rl := w.rl ++ avgs run } := by
  induction run generalizing w with
  | nil => simp [avgs]
  | cons r run ih =>
    have e : printOptimizer w i r = { w with rl := w.rl ++ [r.sum / r.length] } := by
      rw [printOptimizer, record, h]
    rw [List.foldl_cons, e]
    refine (ih { w with rl := w.rl ++ [r.sum / r.length] } h).trans ?_
    simp [avgs]

/-- a run of an object with a list of its own -/
theorem run_own (w : World) (i : Nat) (h : (w.objs i).rl = some []) (hs : (w.objs i).shown = none) (run : List (List ℝ)) :
    ∃ w', runExp w i run = .ok w' ∧ w'.rl = w.rl ∧ w'.rll = w.rll ++ [.own (avgs run)] ∧ (w'.objs i).rl = some [] ∧ (w'.objs i).shown = none ∧ ∀ j, j ≠ i → w'.objs j = w.objs j := by
  obtain ⟨h1, h2, h3, h4, h5⟩ := records_own w i [] h run
  rw [runExp, addExps, h4, hs]
  dsimp only
  rw [h3]
  refine ⟨_, rfl, h1, ?_, by simp [put], by simp [put, h4, hs], fun j hj => by simp [put, hj, h5 j hj]⟩
  simp [h2]

/-- the first run of an object -/
theorem run_cls (w : World) (i : Nat) (h : (w.objs i).rl = none) (hs : (w.objs i).shown = none) (run : List (List ℝ)) :
    ∃ w', runExp w i run = .ok w' ∧ w'.rl = w.rl ++ avgs run ∧ w'.rll = w.rll ++ [.cls] ∧ (w'.objs i).rl = some [] ∧ (w'.objs i).shown = none ∧ ∀ j, j ≠ i → w'.objs j = w.objs j := by
  rw [runExp, records_cls w i h run, addExps]
  dsimp only
  rw [hs, h]
  exact ⟨_, rfl, rfl, rfl, by simp [put], by simp [put, hs], fun j hj => by simp [put, hj]⟩

theorem runs_own (w : World) (i : Nat) (h : (w.objs i).rl = some []) (hs : (w.objs i).shown = none) (runs : List (List (List ℝ))) :
    ∃ w', runExps w i runs = .ok w' ∧ w'.rl = w.rl ∧ w'.rll = w.rll ++ runs.map (fun r => .own (avgs r)) ∧ (w'.objs i).shown = none ∧ ∀ j, j ≠ i → w'.objs j = w.objs j := by
  induction runs generalizing w with
  | nil => exact ⟨w, rfl, rfl, by simp, hs, fun _ _ => rfl⟩
  | cons r runs ih =>
    obtain ⟨w1, e1, h1, h2, h3, h4, h5⟩ := run_own w i h hs r
    obtain ⟨w2, e2, k1, k2, k3, k4⟩ := ih w1 h3 h4
    refine ⟨w2, by rw [runExps, e1]; exact e2, k1.trans h1, by rw [k2, h2]; simp, k3, fun j hj => (k4 j hj).trans (h5 j hj)⟩

/-- all runs of an object that has not been used -/
theorem runs_cls (w : World) (i : Nat) (h : (w.objs i).rl = none) (hs : (w.objs i).shown = none) (r : List (List ℝ)) (runs : List (List (List ℝ))) :
    ∃ w', runExps w i (r :: runs) = .ok w' ∧ w'.rl = w.rl ++ avgs r ∧ w'.rll = w.rll ++ .cls :: runs.map (fun r => .own (avgs r)) ∧ (w'.objs i).shown = none ∧ ∀ j, j ≠ i → w'.objs j = w.objs j := by
  obtain ⟨w1, e1, h1, h2, h3, h4, h5⟩ := run_cls w i h hs r
  obtain ⟨w2, e2, k1, k2, k3, k4⟩ := runs_own w1 i h3 h4 runs
  exact ⟨w2, by rw [runExps, e1]; exact e2, k1.trans h1, by rw [k2, h2]; simp, k3, fun j hj => (k4 j hj).trans (h5 j hj)⟩

theorem map_own (w : World) (runs : List (List (List ℝ))) :
    (runs.map (fun r => Row.own (avgs r))).map (fun | .cls => w.rl | .own l => l) = runs.map avgs := by
  rw [List.map_map]
  rfl

/-- The figure for a number of runs of `n` results each: at every `batch * prnts` evaluations the average over the runs, and the standard deviation. -/
noncomputable def expected (prnts batch n : Nat) (runs : List (List (List ℝ))) : List (Nat × ℝ × ℝ) :=
  (List.range n).map fun k => ((k + 1) * (prnts * batch), (runs.map fun r => (avgs r).getD k 0).sum / runs.length,
    Real.sqrt ((runs.map fun r => ((avgs r).getD k 0 - (runs.map fun r => (avgs r).getD k 0).sum / runs.length) ^ 2).sum / runs.length))

theorem figure_expected (prnts batch n : Nat) (runs : List (List (List ℝ))) (h0 : runs ≠ []) (h : ∀ r ∈ runs, r.length = n) :
    figure prnts batch (runs.map avgs) = .ok (expected prnts batch n runs) := by
  cases runs with
  | nil => exact absurd rfl h0
  | cons r runs =>
    have hl : ∀ r' ∈ r :: runs, (avgs r').length = n := fun r' hr' => by simp [avgs, h r' hr']
    rw [List.map_cons, figure, if_pos]
    · congr 1
      rw [expected, hl r (by simp)]
      refine List.map_congr_left fun k _ => ?_
      have e : column (avgs r :: runs.map avgs) k = (r :: runs).map fun r => (avgs r).getD k 0 := by
        simp [column, List.map_map, Function.comp_def]
      have e2 : average (column (avgs r :: runs.map avgs) k) = ((r :: runs).map fun r => (avgs r).getD k 0).sum / (r :: runs).length := by
        rw [e, average, List.length_map]
      have e3 : deviation (column (avgs r :: runs.map avgs) k) =
          Real.sqrt (((r :: runs).map fun r' => ((avgs r').getD k 0 - ((r :: runs).map fun r => (avgs r).getD k 0).sum / (r :: runs).length) ^ 2).sum / (r :: runs).length) := by
        rw [deviation, e2, e, List.length_map, List.map_map]
        rfl
      rw [e2, e3]
      congr 1
      ring
    · rw [List.all_eq_true]
      intro l hmem
      rw [List.mem_map] at hmem
      obtain ⟨r', hr', rfl⟩ := hmem
      simp [hl r' (by simp [hr']), hl r (by simp)]

end Verif.ExTools

namespace Verif.Props
open Verif.ExTools

/-- C185. With the first object of the class: any number of runs, each with any results, but equally many of them, are recorded, and the figure shows at every evaluation the average over the runs of the averages of the results, and the standard
deviation over the runs. -/
theorem C185_figure_partial (prnts batch n i : Nat) (runs : List (List (List ℝ))) (h0 : runs ≠ []) (h : ∀ r ∈ runs, r.length = n) :
    ∃ w w', runExps World.init i runs = .ok w ∧ showExps prnts batch w i = .ok (w', expected prnts batch n runs) := by
  cases runs with
  | nil => exact absurd rfl h0
  | cons r runs =>
    obtain ⟨w, e, h1, h2, h3, -⟩ := runs_cls World.init i rfl rfl r runs
    have hrows : w.rows = (r :: runs).map avgs := by
      rw [World.rows, h2]
      have : w.rl = avgs r := h1.trans (by simp [World.init])
      simp only [World.init, List.nil_append, List.map_cons, this]
      congr 1
      rw [List.map_map]
      rfl
    refine ⟨w, { w with objs := put w.objs i { w.objs i with shown := some w.rows } }, e, ?_⟩
    rw [showExps, h3]
    simp only [Option.getD_none]
    rw [hrows, figure_expected prnts batch n (r :: runs) h0 h]

/-- The averages lie between the smallest and the largest result, and all error bars are zero exactly if all runs agree. -/
theorem C185_bars (c : List ℝ) (h : c ≠ []) (lo hi : ℝ) (hb : ∀ x ∈ c, lo ≤ x ∧ x ≤ hi) :
    (lo ≤ average c ∧ average c ≤ hi) ∧ 0 ≤ deviation c ∧ (deviation c = 0 ↔ ∀ x ∈ c, ∀ y ∈ c, x = y) := by
  have hpos : (0 : ℝ) < c.length := by
    have := List.length_pos_iff.2 h
    exact_mod_cast this
  have hsum : (c.length : ℝ) * lo ≤ c.sum ∧ c.sum ≤ c.length * hi := by
    clear h hpos
    induction c with
    | nil => simp
    | cons x c ih =>
      obtain ⟨h1, h2⟩ := ih (fun y hy => hb y (by simp [hy]))
      obtain ⟨h3, h4⟩ := hb x (by simp)
      rw [List.sum_cons, List.length_cons]
      push_cast
      constructor <;> nlinarith
  refine ⟨⟨?_, ?_⟩, Real.sqrt_nonneg _, ?_⟩
  · rw [average, le_div_iff₀ hpos]; linarith [hsum.1]
  · rw [average, div_le_iff₀ hpos]; linarith [hsum.2]
  · have hnn : ∀ x ∈ c.map (fun x => (x - average c) ^ 2), 0 ≤ x := by
      intro x hx
      obtain ⟨y, -, rfl⟩ := List.mem_map.1 hx
      positivity
    have hz : deviation c = 0 ↔ ∀ x ∈ c, x = average c := by
      rw [deviation, Real.sqrt_eq_zero (div_nonneg (List.sum_nonneg hnn) hpos.le), div_eq_zero_iff]
      constructor
      · rintro (h1 | h1)
        · intro x hx
          have hle := List.single_le_sum hnn ((x - average c) ^ 2) (List.mem_map.2 ⟨x, hx, rfl⟩)
          have : (x - average c) ^ 2 = 0 := le_antisymm (h1 ▸ hle) (by positivity)
          have := pow_eq_zero_iff (two_ne_zero) |>.1 this
          linarith
        · exact absurd h1 (ne_of_gt hpos)
      · intro h1
        left
        apply List.sum_eq_zero
        intro x hx
        obtain ⟨y, hy, rfl⟩ := List.mem_map.1 hx
        rw [h1 y hy]
        ring
    rw [hz]
    constructor
    · intro h1 x hx y hy
      rw [h1 x hx, h1 y hy]
    · intro h1 x hx
      have : c.sum = c.length * x := by
        have : c = List.replicate c.length x := List.eq_replicate_iff.2 ⟨rfl, fun y hy => h1 y hy x hx⟩
        conv_lhs => rw [this]
        rw [List.sum_replicate, nsmul_eq_mul]
      rw [average, this, mul_div_cancel_left₀ _ (ne_of_gt hpos)]

/-- **C185 fails for a second object**: its figure contains the runs of the first one, and the first run of the first object has been prolonged by the results of the second object's first run, because the lists belong to the class. For runs of equal
lengths this raises an exception, as soon as a run of the first object is followed by one with results of the second. -/
theorem C185_negation_shared (prnts batch n : Nat) (i j : Nat) (hij : j ≠ i) (hn : 0 < n) (first second : List (List (List ℝ))) (h1 : 2 ≤ first.length) (h2 : second ≠ []) (hf : ∀ r ∈ first, r.length = n) (hs : ∀ r ∈ second, r.length = n) :
    ∃ w w', runExps World.init i first = .ok w ∧ runExps w j second = .ok w' ∧ showExps prnts batch w' j = .error .ragged := by
  obtain ⟨r, r2, rs, rfl⟩ : ∃ r r2 rs, first = r :: r2 :: rs := by
    match first, h1 with
    | r :: r2 :: rs, _ => exact ⟨r, r2, rs, rfl⟩
  obtain ⟨q, qs, rfl⟩ : ∃ q qs, second = q :: qs := by
    match second, h2 with
    | q :: qs, _ => exact ⟨q, qs, rfl⟩
  obtain ⟨w, e, a1, a2, a3, a4⟩ := runs_cls World.init i rfl rfl r (r2 :: rs)
  have hj := a4 j hij
  obtain ⟨w', e', b1, b2, b3, -⟩ := runs_cls w j (by rw [hj]; rfl) (by rw [hj]; rfl) q qs
  refine ⟨w, w', e, e', ?_⟩
  rw [showExps, b3]
  simp only [Option.getD_none]
  have hrl : w'.rl = avgs r ++ avgs q := by rw [b1, a1]; simp [World.init]
  have hrows : ∃ tail, w'.rows = (avgs r ++ avgs q) :: avgs r2 :: tail := by
    rw [World.rows, b2, a2]
    simp only [World.init, List.nil_append, List.map_cons, List.cons_append, hrl]
    exact ⟨_, rfl⟩
  obtain ⟨tail, ht⟩ := hrows
  rw [ht, figure, if_neg]
  rw [List.all_eq_true]
  intro hall
  have := hall (avgs r2) (by simp)
  have l1 := hf r (by simp)
  have l2 := hf r2 (by simp)
  have l3 := hs q (by simp)
  simp [avgs, l1, l2, l3] at this
  omega

/-- **C185 fails for an object that shares a single run**: after one run with each of two objects, of any results, the figure of the second shows two runs, both equal to the results of the first object followed by those of the second. -/
theorem C185_negation_merged (prnts batch : Nat) (i j : Nat) (hij : j ≠ i) (r q : List (List ℝ)) :
    ∃ w w' w2, runExps World.init i [r] = .ok w ∧ runExps w j [q] = .ok w' ∧ showExps prnts batch w' j = .ok (w2, expected prnts batch (r.length + q.length) [r ++ q, r ++ q]) := by
  obtain ⟨w, e, a1, a2, a3, a4⟩ := runs_cls World.init i rfl rfl r []
  have hj := a4 j hij
  obtain ⟨w', e', b1, b2, b3, -⟩ := runs_cls w j (by rw [hj]; rfl) (by rw [hj]; rfl) q []
  have hrl : w'.rl = avgs r ++ avgs q := by rw [b1, a1]; simp [World.init]
  have hrows : w'.rows = [r ++ q, r ++ q].map avgs := by
    rw [World.rows, b2, a2]
    simp [World.init, hrl, avgs]
  refine ⟨w, w', { w' with objs := put w'.objs j { w'.objs j with shown := some w'.rows } }, e, e', ?_⟩
  rw [showExps, b3]
  simp only [Option.getD_none]
  rw [hrows, figure_expected prnts batch (r.length + q.length) [r ++ q, r ++ q] (by simp) (by simp)]

/-- **C185 fails after the figure was shown**: further runs cannot be added, AttributeError is raised. -/
theorem C185_negation_shown (prnts batch i : Nat) (w w' : World) (f : List (Nat × ℝ × ℝ)) (h : showExps prnts batch w i = .ok (w', f)) (run : List (List ℝ)) : runExp w' i run = .error .attribute := by
  have hs : (w'.objs i).shown ≠ none := by
    rw [showExps] at h
    dsimp only at h
    split at h
    · cases h
    · cases h
      simp [put]
  have key : ∀ (run : List (List ℝ)) (v : World), (v.objs i).shown ≠ none → ((run.foldl (fun w r => printOptimizer w i r) v).objs i).shown ≠ none := by
    intro run
    induction run with
    | nil => intro v hv; exact hv
    | cons r run ih =>
      intro v hv
      refine ih (printOptimizer v i r) ?_
      rw [printOptimizer, record]
      split
      · exact hv
      · simpa [put] using hv
  have := key run w' hs
  rw [runExp, addExps]
  split
  · rfl
  · rename_i hn; exact absurd hn this

/-- The hypotheses are met: two runs of two results each. -/
example : expected 1 2 2 [[[1, 3], [4]], [[4], [4, 4]]] = [(2, 3, 1), (4, 4, 0)] := by
  simp [expected, avgs, List.range_succ]
  norm_num

end Verif.Props

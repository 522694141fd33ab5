import Verif.Model.GridSearch
import Mathlib.Data.List.Perm.Basic
import Mathlib.Data.List.Nodup
import Mathlib.Algebra.Order.Field.Basic
import Mathlib.Tactic.Positivity
import Mathlib.Tactic.Ring
import Mathlib.Tactic.Linarith
import Mathlib.Tactic.FieldSimp
import Mathlib.Tactic.NormNum
/-
Property theorems C31 (GridSearch2D) and C32 (GridSearchDOE), pybrain/tools/gridsearch.py.
-/
namespace Verif.Props
open Verif.DataSet (Err)
open Verif.GridSearch Verif.Py

/-! ### C31 -/

theorem interleave_perm {α : Type} : ∀ (l r : List α), (interleave l r).Perm (l ++ r)
  | [], r => by simp [interleave]
  | a :: l, [] => by simp [interleave]
  | a :: l, b :: r => by
    have := interleave_perm l r
    rw [interleave]
    refine List.Perm.cons a ?_
    refine (List.Perm.cons b this).trans ?_
    exact List.perm_middle.symm

theorem permuteSequence_perm {α : Type} : ∀ (n : Nat) (seq : List α), seq.length = n → (permuteSequence seq).Perm seq := by
  intro n
  induction n using Nat.strongRecOn with
  | ind n ih =>
    intro seq hn
    rw [permuteSequence]
    split
    · exact List.Perm.refl _
    · rename_i h
      have hm : seq.length / 2 < seq.length := by omega
      have h1 := ih (seq.take (seq.length / 2)).length (by simp; omega) _ rfl
      have h2 := ih (seq.drop (seq.length / 2 + 1)).length (by simp; omega) _ rfl
      have h3 := (interleave_perm (permuteSequence (seq.take (seq.length / 2))) (permuteSequence (seq.drop (seq.length / 2 + 1)))).trans
        (h1.append h2)
      refine (List.Perm.cons _ h3).trans ?_
      refine List.perm_middle.symm.trans (List.Perm.of_eq ?_)
      rw [← List.drop_eq_getElem_cons hm, List.take_append_drop]

/-- all pairs of positions below `i` and `j` -/
def box (i j : Nat) : List (Nat × Nat) := (List.range i).flatMap (fun a => (List.range j).map (fun b => (a, b)))

theorem mem_box (i j : Nat) (p : Nat × Nat) : p ∈ box i j ↔ p.1 < i ∧ p.2 < j := by
  obtain ⟨a, b⟩ := p
  simp [box]

theorem box_succ_left (i j : Nat) : box (i + 1) j = box i j ++ (List.range j).map (fun k => (i, k)) := by
  simp [box, List.range_succ, List.flatMap_append]

theorem flatMap_append_perm {α β : Type} (f g : α → List β) : ∀ l : List α,
    (l.flatMap (fun a => f a ++ g a)).Perm (l.flatMap f ++ l.flatMap g)
  | [] => by simp
  | a :: l => by
    simp only [List.flatMap_cons]
    have := flatMap_append_perm f g l
    refine ((List.Perm.refl (f a ++ g a)).append this).trans ?_
    rw [List.append_assoc, List.append_assoc]
    refine List.Perm.append_left _ ?_
    rw [← List.append_assoc, ← List.append_assoc]
    exact List.perm_append_comm.append_right _

theorem box_succ_right (i j : Nat) : (box i (j + 1)).Perm (box i j ++ (List.range i).map (fun k => (k, j))) := by
  have h : box i (j + 1) = (List.range i).flatMap (fun a => (List.range j).map (fun b => (a, b)) ++ [(a, j)]) := by
    simp [box, List.range_succ]
  rw [h]
  refine (flatMap_append_perm _ _ _).trans (List.Perm.of_eq ?_)
  rw [box]
  congr 1
  generalize List.range i = l
  induction l with
  | nil => rfl
  | cons a l ih => simp [ih]

theorem jobsLoop_spec (nc ng : Nat) (hc : 0 < nc) (hg : 0 < ng) : ∀ (fuel i j : Nat), i ≤ nc → j ≤ ng → (nc - i) + (ng - j) ≤ fuel →
    ∃ lines, jobsLoop nc ng fuel i j = some lines ∧ (box i j ++ lines.flatten).Perm (box nc ng) := by
  intro fuel
  induction fuel with
  | zero =>
    intro i j hi hj hf
    have h1 : i = nc := by omega
    have h2 : j = ng := by omega
    subst h1 h2
    exact ⟨[], by simp [jobsLoop], by simp⟩
  | succ fuel ih =>
    intro i j hi hj hf
    rw [jobsLoop]
    by_cases h : i < nc ∨ j < ng
    · rw [if_pos h]
      by_cases hlt : i * ng < j * nc
      · rw [if_pos hlt]
        have hi' : i < nc := by
          by_contra hge
          have : i = nc := by omega
          subst this
          have := Nat.mul_le_mul_right i hj
          rw [Nat.mul_comm ng] at this; omega
        obtain ⟨lines, h1, h2⟩ := ih (i + 1) j hi' hj (by omega)
        refine ⟨_, by rw [h1]; rfl, ?_⟩
        rw [List.flatten_cons, ← List.append_assoc, ← box_succ_left]
        exact h2
      · rw [if_neg hlt]
        have hj' : j < ng := by
          by_contra hge
          have : j = ng := by omega
          subst this
          have hi' : i < nc := by omega
          have := Nat.mul_lt_mul_of_pos_right hi' hg
          rw [Nat.mul_comm nc] at this; omega
        obtain ⟨lines, h1, h2⟩ := ih i (j + 1) hi hj' (by omega)
        refine ⟨_, by rw [h1]; rfl, ?_⟩
        rw [List.flatten_cons, ← List.append_assoc]
        exact ((box_succ_right i j).symm.append_right _).trans h2
    · rw [if_neg h]
      have h1 : i = nc := by omega
      have h2 : j = ng := by omega
      subst h1 h2
      exact ⟨[], rfl, by simp⟩

theorem cells_mapM_ok {α β ε : Type} (f : α → Except ε β) (g : α → β) : ∀ l : List α, (∀ a ∈ l, f a = .ok (g a)) → l.mapM f = .ok (l.map g) := by
  intro l
  induction l with
  | nil => intro _; rfl
  | cons a l ih =>
    intro h
    rw [List.mapM_cons, h a List.mem_cons_self, ih (fun x hx => h x (List.mem_cons_of_mem _ hx))]
    rfl

theorem map_getElem_range {α : Type} (c : List α) (d : α) : (List.range c.length).map (fun i => c[i]?.getD d) = c := by
  apply List.ext_getElem?
  intro k
  rw [List.getElem?_map]
  by_cases hk : k < c.length
  · rw [List.getElem?_range hk, Option.map_some, List.getElem?_eq_getElem hk]; rfl
  · rw [List.getElem?_eq_none (l := c) (by omega), List.getElem?_eq_none (by simp; omega)]; rfl

/-- the parameter grid: all pairs of a value of the first and a value of the second axis -/
def gridPoints {K : Type} (c g : List K) : List (K × K) := c.flatMap (fun x => g.map (fun y => (x, y)))

theorem gridPoints_perm {K : Type} {c c' g g' : List K} (hc : c.Perm c') (hg : g.Perm g') : (gridPoints c g).Perm (gridPoints c' g') := by
  unfold gridPoints
  exact hc.flatMap (fun a _ => hg.map _)

theorem box_map {K : Type} (c g : List K) (d : K) :
    (box c.length g.length).map (fun p => (c[p.1]?.getD d, g[p.2]?.getD d)) = gridPoints c g := by
  conv_rhs => rw [← map_getElem_range c d]
  rw [box, gridPoints, List.map_flatMap, List.flatMap_map]
  congr 1
  funext a
  conv_rhs => rw [← map_getElem_range g d]
  simp [Function.comp_def]

/-- **C31, jobs.** For two non-empty axes the jobs are exactly the pairs of the grid, each exactly once (as often as its values occur on
the axes); no index error, no missed or repeated cell. -/
theorem C31_jobs {K : Type} (c g : List K) (hc : c ≠ []) (hg : g ≠ []) :
    ∃ jobs, calculateJobs c g = .ok jobs ∧ jobs.Perm (gridPoints c g) := by
  have pc := permuteSequence_perm _ c rfl
  have pg := permuteSequence_perm _ g rfl
  unfold calculateJobs
  simp only
  generalize permuteSequence c = c' at *
  generalize permuteSequence g = g' at *
  have hc' : c' ≠ [] := fun h => hc (by rw [h] at pc; exact List.nil_perm.1 pc)
  have hg' : g' ≠ [] := fun h => hg (by rw [h] at pg; exact List.nil_perm.1 pg)
  obtain ⟨lines, h1, h2⟩ := jobsLoop_spec c'.length g'.length (List.length_pos_iff.2 hc') (List.length_pos_iff.2 hg')
    (c'.length + g'.length) 0 0 (by omega) (by omega) (by omega)
  have h0 : box 0 0 = [] := rfl
  rw [h0, List.nil_append] at h2
  obtain ⟨d, _⟩ := List.exists_mem_of_ne_nil c hc
  rw [if_neg (by simp [hc', hg']), h1]
  simp only
  have hall : ∀ p ∈ lines.flatten, cell c' g' p = .ok (c'[p.1]?.getD d, g'[p.2]?.getD d) := by
    intro p hp
    obtain ⟨e1, e2⟩ := (mem_box _ _ _).1 (h2.mem_iff.1 hp)
    simp only [cell, List.getElem?_eq_getElem e1, List.getElem?_eq_getElem e2, Option.getD_some]
  refine ⟨_, cells_mapM_ok _ _ _ hall, ?_⟩
  refine (h2.map _).trans ?_
  rw [box_map]
  exact gridPoints_perm pc pg

theorem validateAll_spec {P V : Type} [DecidableEq P] (validate : Nat → P → V) : ∀ (jobs : List P) (t : Nat) (perfs : List (P × V)),
    (∀ (p : P) (v : V), dget (validateAll validate t jobs perfs) p = some v →
      (∃ i : Nat, jobs[i]? = some p ∧ v = validate (t + i) p) ∨ (p ∉ jobs ∧ dget perfs p = some v)) ∧
    (∀ p ∈ jobs, ∃ v, dget (validateAll validate t jobs perfs) p = some v) ∧
    (∀ (p : P) (v : V), dget perfs p = some v → ∃ w, dget (validateAll validate t jobs perfs) p = some w) := by
  intro jobs
  induction jobs with
  | nil => intro t perfs; exact ⟨fun p v h => Or.inr ⟨by simp, h⟩, by simp, fun p v h => ⟨v, h⟩⟩
  | cons q jobs ih =>
    intro t perfs
    obtain ⟨h1, h2, h3⟩ := ih (t + 1) (dset perfs q (validate t q))
    rw [validateAll]
    refine ⟨fun p v h => ?_, fun p hp => ?_, fun p v h => ?_⟩
    · rcases h1 p v h with ⟨i, hi, hv⟩ | ⟨hn, hd⟩
      · exact Or.inl ⟨i + 1, by simpa using hi, by rw [hv]; congr 1; omega⟩
      · rw [dget_dset] at hd
        split at hd
        · rename_i hq
          subst hq
          exact Or.inl ⟨0, by simp, by simpa using hd.symm⟩
        · rename_i hq
          exact Or.inr ⟨by simp [hn, Ne.symm hq], hd⟩
    · by_cases hpq : p = q
      · subst hpq
        exact h3 p _ (dget_dset_self _ _ _)
      · exact h2 p (by simpa [hpq] using hp)
    · by_cases hpq : q = p
      · subst hpq; exact h3 q _ (dget_dset_self _ _ _)
      · exact h3 p v (by rw [dget_dset_ne _ _ _ _ hpq]; exact h)

/-- keys are unique -/
def UniqueKeys {P V : Type} (d : List (P × V)) : Prop := (d.map Prod.fst).Nodup

theorem dset_keys {P V : Type} [DecidableEq P] (d : List (P × V)) (k : P) (v : V) :
    (dset d k v).map Prod.fst = if k ∈ d.map Prod.fst then d.map Prod.fst else d.map Prod.fst ++ [k] := by
  induction d with
  | nil => simp [dset]
  | cons a d ih =>
    obtain ⟨k', v'⟩ := a
    rw [dset]
    by_cases h : k' = k
    · subst h; simp
    · rw [if_neg h, List.map_cons, ih]
      by_cases h2 : k ∈ d.map Prod.fst
      · rw [if_pos h2, if_pos (by simp only [List.map_cons]; exact List.mem_cons_of_mem _ h2)]; rfl
      · rw [if_neg h2, if_neg (by simp only [List.map_cons, List.mem_cons]; rintro (e | e); exacts [h e.symm, h2 e])]; rfl

theorem dset_unique {P V : Type} [DecidableEq P] (d : List (P × V)) (k : P) (v : V) (h : UniqueKeys d) : UniqueKeys (dset d k v) := by
  unfold UniqueKeys at *
  rw [dset_keys]
  split
  · exact h
  · rename_i hk
    rw [List.nodup_append]
    exact ⟨h, List.nodup_singleton _, fun a ha b hb => by simp at hb; subst hb; intro e; subst e; exact hk ha⟩

theorem validateAll_unique {P V : Type} [DecidableEq P] (validate : Nat → P → V) : ∀ (jobs : List P) (t : Nat) (perfs : List (P × V)),
    UniqueKeys perfs → UniqueKeys (validateAll validate t jobs perfs) := by
  intro jobs
  induction jobs with
  | nil => intro t p h; exact h
  | cons q jobs ih => intro t p h; exact ih _ _ (dset_unique _ _ _ h)

theorem dget_of_mem {P V : Type} [DecidableEq P] : ∀ (d : List (P × V)), UniqueKeys d → ∀ (k : P) (v : V), (k, v) ∈ d → dget d k = some v := by
  intro d
  induction d with
  | nil => intro _ k v h; simp at h
  | cons a d ih =>
    intro hu k v h
    obtain ⟨k', v'⟩ := a
    unfold UniqueKeys at hu
    simp only [List.map_cons, List.nodup_cons] at hu
    rw [dget]
    rcases List.mem_cons.1 h with h | h
    · cases h; simp
    · rw [if_neg, ih hu.2 k v h]
      intro e
      subst e
      exact hu.1 (List.mem_map.2 ⟨_, h, rfl⟩)

theorem mem_of_dget {P V : Type} [DecidableEq P] : ∀ (d : List (P × V)) (k : P) (v : V), dget d k = some v → (k, v) ∈ d := by
  intro d
  induction d with
  | nil => intro k v h; simp [dget] at h
  | cons a d ih =>
    intro k v h
    obtain ⟨k', v'⟩ := a
    rw [dget] at h
    split at h
    · rename_i e; subst e; simp at h; subst h; exact List.mem_cons_self
    · exact List.mem_cons_of_mem _ (ih k v h)

/-- **C31.** GridSearch2D validates exactly the grid points, each once, and returns a grid point with the largest performance:
there is a function `perf` that gives every grid point the performance measured for it (by the `t`-th validation), and no grid
point has a larger one than the point returned. -/
theorem C31_search {K V : Type} [DecidableEq K] [LinearOrder V] (validate : Nat → K × K → V) (c g : List K) (hc : c ≠ []) (hg : g ≠ []) :
    ∃ (jobs : List (K × K)) (best : K × K) (perfs : List ((K × K) × V)) (perf : K × K → V),
      calculateJobs c g = .ok jobs ∧ jobs.Perm (gridPoints c g) ∧ search validate c g = .ok (best, perfs) ∧
      best ∈ gridPoints c g ∧ (∀ p ∈ gridPoints c g, perf p ≤ perf best) ∧
      (∀ p ∈ gridPoints c g, ∃ t : Nat, jobs[t]? = some p ∧ perf p = validate t p) ∧
      (∀ (p : K × K) (v : V), (p, v) ∈ perfs ↔ p ∈ gridPoints c g ∧ v = perf p) := by
  obtain ⟨jobs, hj, hp⟩ := C31_jobs c g hc hg
  obtain ⟨h1, h2, _⟩ := validateAll_spec validate jobs 0 []
  have hu := validateAll_unique validate jobs 0 [] (by simp [UniqueKeys])
  have hne : jobs ≠ [] := by
    obtain ⟨x, hx⟩ := List.exists_mem_of_ne_nil c hc
    obtain ⟨y, hy⟩ := List.exists_mem_of_ne_nil g hg
    intro h
    rw [h] at hp
    have : (x, y) ∈ gridPoints c g := by simp [gridPoints, hx, hy]
    rw [List.nil_perm.1 hp] at this
    simp at this
  set perfs := validateAll validate 0 jobs [] with hperfs
  have hpn : perfs ≠ [] := by
    obtain ⟨x, hx⟩ := List.exists_mem_of_ne_nil jobs hne
    obtain ⟨v, hv⟩ := h2 x hx
    intro h
    rw [h] at hv
    simp [dget] at hv
  obtain ⟨kv, hkv⟩ := firstMax_isSome (Prod.snd : (K × K) × V → V) perfs hpn
  obtain ⟨hmem, hmax⟩ := firstMax_spec _ _ _ hkv
  have hkeys : ∀ (p : K × K) (v : V), (p, v) ∈ perfs → p ∈ jobs ∧ ∃ t : Nat, jobs[t]? = some p ∧ v = validate t p := by
    intro p v h
    rcases h1 p v (dget_of_mem _ hu p v h) with ⟨i, hi, hv⟩ | ⟨_, hd⟩
    · exact ⟨List.mem_of_getElem? hi, i, hi, by simpa using hv⟩
    · simp [dget] at hd
  refine ⟨jobs, kv.1, perfs, fun p => (dget perfs p).getD kv.2, hj, hp, ?_, hp.mem_iff.1 (hkeys kv.1 kv.2 hmem).1, ?_, ?_, ?_⟩
  · simp only [search, hj, ← hperfs, hkv]
  · intro p hpp
    obtain ⟨v, hv⟩ := h2 p (hp.mem_iff.2 hpp)
    beta_reduce
    rw [hv, dget_of_mem _ hu kv.1 kv.2 hmem]
    exact hmax _ (mem_of_dget _ _ _ hv)
  · intro p hpp
    obtain ⟨v, hv⟩ := h2 p (hp.mem_iff.2 hpp)
    obtain ⟨_, t, ht, e⟩ := hkeys p v (mem_of_dget _ _ _ hv)
    exact ⟨t, ht, by beta_reduce; rw [hv]; exact e⟩
  · intro p v
    constructor
    · intro h
      exact ⟨hp.mem_iff.1 (hkeys p v h).1, by beta_reduce; rw [dget_of_mem _ hu p v h]; rfl⟩
    · rintro ⟨hpp, rfl⟩
      obtain ⟨v, hv⟩ := h2 p (hp.mem_iff.2 hpp)
      beta_reduce
      rw [hv]
      exact mem_of_dget _ _ _ hv

section axis
variable {K : Type} [Field K] [LinearOrder K] [IsStrictOrderedRing K]

/-- **C31, axis.** The axis values: `n` of them, the first is the minimum and the last the maximum, all within the bounds, and distinct
if the minimum is below the maximum; so the grid's points are then distinct. -/
theorem C31_axis (a b : K) (n : Nat) (hab : a ≤ b) (hn : 0 < n) :
    (linspace a b n).length = n ∧ (linspace a b n)[0]? = some a ∧ (1 < n → (linspace a b n)[n - 1]? = some b) ∧
    (∀ x ∈ linspace a b n, a ≤ x ∧ x ≤ b) ∧ (a < b → (linspace a b n).Nodup) := by
  by_cases h1 : n = 1
  · subst h1
    simp [linspace, hab]
  · have hn1 : (0 : K) < (n : K) - 1 := by
      have : (1 : K) < n := by exact_mod_cast (show 1 < n by omega)
      linarith
    have hb : 0 ≤ (b - a) / ((n : K) - 1) := div_nonneg (by linarith) hn1.le
    simp only [linspace, if_neg h1]
    refine ⟨by simp, ?_, fun h => ?_, ?_, ?_⟩
    · rw [List.getElem?_map, List.getElem?_range hn]; simp
    · rw [List.getElem?_map, List.getElem?_range (by omega), Option.map_some, Nat.cast_sub (by omega), Nat.cast_one]
      congr 1
      field_simp
      ring
    · intro x hx
      obtain ⟨k, hk, rfl⟩ := List.mem_map.1 hx
      have hk' : (k : K) ≤ (n : K) - 1 := by
        have := List.mem_range.1 hk
        have h2 : ((k + 1 : Nat) : K) ≤ n := by exact_mod_cast this
        push_cast at h2
        linarith
      have h2 : (k : K) * ((b - a) / ((n : K) - 1)) ≤ ((n : K) - 1) * ((b - a) / ((n : K) - 1)) := mul_le_mul_of_nonneg_right hk' hb
      rw [mul_div_cancel₀ _ hn1.ne'] at h2
      have h3 : 0 ≤ (k : K) * ((b - a) / ((n : K) - 1)) := mul_nonneg (Nat.cast_nonneg k) hb
      constructor <;> linarith
    · intro hlt
      have hb' : 0 < (b - a) / ((n : K) - 1) := div_pos (by linarith) hn1
      refine List.Nodup.map ?_ List.nodup_range
      intro i j hij
      have : (i : K) = j := by
        have h2 : (i : K) * ((b - a) / ((n : K) - 1)) = j * ((b - a) / ((n : K) - 1)) := by simpa using hij
        exact mul_right_cancel₀ hb'.ne' h2
      exact_mod_cast this

theorem C31_distinct {K : Type} (c g : List K) (hc : c.Nodup) (hg : g.Nodup) : (gridPoints c g).Nodup := by
  unfold gridPoints
  rw [List.nodup_flatMap]
  refine ⟨fun x _ => hg.map (fun a b h => by simpa using h), ?_⟩
  refine hc.imp ?_
  intro a b hab x hx hy
  simp only [List.mem_map] at hx hy
  obtain ⟨y, _, rfl⟩ := hx
  obtain ⟨z, _, h⟩ := hy
  exact hab (by simpa using (congrArg Prod.fst h).symm)

end axis

example : permuteSequence [0, 1, 2, 3, 4] = [2, 1, 4, 0, 3] := by simp [permuteSequence, interleave]
example : jobsLoop 2 2 4 0 0 = some [[], [(0, 0)], [(0, 1)], [(1, 0), (1, 1)]] := by decide

/-! ### C32 -/

section doe
variable {K : Type} [Field K] [LinearOrder K] [IsStrictOrderedRing K]

theorem colMin_eq (m : K) : ∀ (l : List K), m ∈ l → (∀ x ∈ l, m ≤ x) → colMin l = m := by
  have hle : ∀ (l : List K), l ≠ [] → colMin l ∈ l := by
    intro l
    induction l with
    | nil => intro h; exact absurd rfl h
    | cons a l ih =>
      intro _
      cases l with
      | nil => simp [colMin]
      | cons b l =>
        rw [colMin]
        rcases min_choice a (colMin (b :: l)) with h | h
        · rw [h]; exact List.mem_cons_self
        · rw [h]; exact List.mem_cons_of_mem _ (ih (by simp))
  have hlb : ∀ (l : List K), ∀ x ∈ l, colMin l ≤ x := by
    intro l
    induction l with
    | nil => intro x h; simp at h
    | cons a l ih =>
      intro x hx
      cases l with
      | nil => simp at hx; simp [colMin, hx]
      | cons b l =>
        rw [colMin]
        rcases List.mem_cons.1 hx with rfl | hx
        · exact min_le_left _ _
        · exact le_trans (min_le_right _ _) (ih x hx)
  intro l hm h
  exact le_antisymm (hlb l m hm) (h _ (hle l (List.ne_nil_of_mem hm)))

theorem colMax_eq (m : K) : ∀ (l : List K), m ∈ l → (∀ x ∈ l, x ≤ m) → colMax l = m := by
  have hle : ∀ (l : List K), l ≠ [] → colMax l ∈ l := by
    intro l
    induction l with
    | nil => intro h; exact absurd rfl h
    | cons a l ih =>
      intro _
      cases l with
      | nil => simp [colMax]
      | cons b l =>
        rw [colMax]
        rcases max_choice a (colMax (b :: l)) with h | h
        · rw [h]; exact List.mem_cons_self
        · rw [h]; exact List.mem_cons_of_mem _ (ih (by simp))
  have hlb : ∀ (l : List K), ∀ x ∈ l, x ≤ colMax l := by
    intro l
    induction l with
    | nil => intro x h; simp at h
    | cons a l ih =>
      intro x hx
      cases l with
      | nil => simp at hx; simp [colMax, hx]
      | cons b l =>
        rw [colMax]
        rcases List.mem_cons.1 hx with rfl | hx
        · exact le_max_left _ _
        · exact le_trans (ih x hx) (le_max_right _ _)
  intro l hm h
  exact le_antisymm (h _ (hle l (List.ne_nil_of_mem hm))) (hlb l m hm)

/-- the shift of a column whose values are centred at `c` and reach `s` to both sides -/
def shiftOf (lo hi s c : K) : K := if hi < c + s then hi - (c + s) else if c - s < lo then lo - (c - s) else 0

/-- a pattern column: all entries in [-1,1], both ends present -/
def PatCol (pat : List K) : Prop := 1 ∈ pat ∧ -1 ∈ pat ∧ ∀ p ∈ pat, -1 ≤ p ∧ p ≤ 1

theorem calcColumn_eq (lo hi : K) (hlo : lo ≤ hi) (pat : List K) (hp : PatCol pat) (c : K) (L : Nat) :
    calcColumn lo hi pat c L = pat.map (fun p => p * ((hi - lo) / 2 ^ L / 2) + c + shiftOf lo hi ((hi - lo) / 2 ^ L / 2) c) := by
  have hs : 0 ≤ (hi - lo) / 2 ^ L / 2 := by
    have : 0 ≤ hi - lo := by linarith
    positivity
  unfold calcColumn moveIntoBounds
  simp only
  generalize (hi - lo) / 2 ^ L / 2 = s at *
  have hmax : colMax (pat.map (fun p => p * s + c)) = c + s := by
    apply colMax_eq
    · exact List.mem_map.2 ⟨1, hp.1, by ring⟩
    · intro x hx
      obtain ⟨p, hpm, rfl⟩ := List.mem_map.1 hx
      have := mul_le_mul_of_nonneg_right (hp.2.2 p hpm).2 hs
      linarith
  have hmin : colMin (pat.map (fun p => p * s + c)) = c - s := by
    apply colMin_eq
    · exact List.mem_map.2 ⟨-1, hp.2.1, by ring⟩
    · intro x hx
      obtain ⟨p, hpm, rfl⟩ := List.mem_map.1 hx
      have := mul_le_mul_of_nonneg_right (hp.2.2 p hpm).1 hs
      linarith
  rw [hmax, hmin, List.map_map]
  rfl

theorem half_bounds : (-1 : K) ≤ 1 / 2 ∧ (1 : K) / 2 ≤ 1 ∧ (-1 : K) ≤ -(1 / 2) ∧ -((1 : K) / 2) ≤ 1 := by
  refine ⟨?_, ?_, ?_, ?_⟩ <;> linarith [half_pos (zero_lt_one (α := K)), half_lt_self (zero_lt_one (α := K))]

theorem patFst : PatCol ((doePat (K := K)).map Prod.fst) := by
  obtain ⟨h1, h2, h3, h4⟩ := half_bounds (K := K)
  refine ⟨by simp [doePat], by simp [doePat], ?_⟩
  intro p hp
  simp only [doePat, List.map_cons, List.map_nil, List.mem_cons, List.not_mem_nil, or_false] at hp
  rcases hp with rfl | rfl | rfl | rfl | rfl | rfl | rfl | rfl | rfl | rfl | rfl | rfl | rfl <;>
    first | exact ⟨h1, h2⟩ | exact ⟨h3, h4⟩ | (constructor <;> linarith [zero_lt_one (α := K)])

theorem patSnd : PatCol ((doePat (K := K)).map Prod.snd) := by
  obtain ⟨h1, h2, h3, h4⟩ := half_bounds (K := K)
  refine ⟨by simp [doePat], by simp [doePat], ?_⟩
  intro p hp
  simp only [doePat, List.map_cons, List.map_nil, List.mem_cons, List.not_mem_nil, or_false] at hp
  rcases hp with rfl | rfl | rfl | rfl | rfl | rfl | rfl | rfl | rfl | rfl | rfl | rfl | rfl <;>
    first | exact ⟨h1, h2⟩ | exact ⟨h3, h4⟩ | (constructor <;> linarith [zero_lt_one (α := K)])

/-- step of level `L` in one coordinate -/
def stepOf (lo hi : K) (L : Nat) : K := (hi - lo) / 2 ^ L / 2

theorem calcGrid_eq (lo hi c : K × K) (L : Nat) (h1 : lo.1 ≤ hi.1) (h2 : lo.2 ≤ hi.2) :
    calcGrid lo hi c L = doePat.map (fun p =>
      (p.1 * stepOf lo.1 hi.1 L + c.1 + shiftOf lo.1 hi.1 (stepOf lo.1 hi.1 L) c.1,
       p.2 * stepOf lo.2 hi.2 L + c.2 + shiftOf lo.2 hi.2 (stepOf lo.2 hi.2 L) c.2)) := by
  rw [calcGrid, calcColumn_eq _ _ h1 _ patFst, calcColumn_eq _ _ h2 _ patSnd]
  simp [doePat, stepOf]

/-- whatever the centre, a shifted coordinate is inside the bounds -/
theorem shift_bounds (lo hi s c p : K) (h2s : 2 * s ≤ hi - lo) (hs : 0 ≤ s) (hp : -1 ≤ p ∧ p ≤ 1) :
    lo ≤ p * s + c + shiftOf lo hi s c ∧ p * s + c + shiftOf lo hi s c ≤ hi := by
  have h1 := mul_le_mul_of_nonneg_right hp.1 hs
  have h2 := mul_le_mul_of_nonneg_right hp.2 hs
  unfold shiftOf
  split
  · constructor <;> linarith
  · split
    · constructor <;> linarith
    · constructor <;> linarith

theorem step_bounds (lo hi : K) (h : lo ≤ hi) (L : Nat) : 0 ≤ stepOf lo hi L ∧ 2 * stepOf lo hi L ≤ hi - lo := by
  have h0 : 0 ≤ hi - lo := by linarith
  unfold stepOf
  refine ⟨by positivity, ?_⟩
  rw [mul_div_cancel₀ _ two_ne_zero]
  exact div_le_self h0 (one_le_pow₀ (by norm_num))

/-- **C32, bounds.** Every point GridSearchDOE validates lies within the bounds of both parameters, whatever the centre. -/
theorem C32_grid_bounds (lo hi c : K × K) (L : Nat) (h1 : lo.1 ≤ hi.1) (h2 : lo.2 ≤ hi.2) :
    (calcGrid lo hi c L).length = 13 ∧
    ∀ q ∈ calcGrid lo hi c L, lo.1 ≤ q.1 ∧ q.1 ≤ hi.1 ∧ lo.2 ≤ q.2 ∧ q.2 ≤ hi.2 := by
  rw [calcGrid_eq lo hi c L h1 h2]
  refine ⟨by simp [doePat], fun q hq => ?_⟩
  obtain ⟨p, hp, rfl⟩ := List.mem_map.1 hq
  obtain ⟨a1, a2⟩ := step_bounds lo.1 hi.1 h1 L
  obtain ⟨b1, b2⟩ := step_bounds lo.2 hi.2 h2 L
  obtain ⟨x1, x2⟩ := shift_bounds lo.1 hi.1 _ c.1 p.1 a2 a1 (patFst.2.2 p.1 (List.mem_map.2 ⟨p, hp, rfl⟩))
  obtain ⟨y1, y2⟩ := shift_bounds lo.2 hi.2 _ c.2 p.2 b2 b1 (patSnd.2.2 p.2 (List.mem_map.2 ⟨p, hp, rfl⟩))
  exact ⟨x1, x2, y1, y2⟩

/-- `c` is a lattice point of level `L`: `lo + k * step`, with the last one at `hi` -/
def OnLattice (lo hi : K) (L : Nat) (c : K) : Prop := ∃ k : ℤ, 0 ≤ k ∧ k ≤ 2 ^ (L + 1) ∧ c = lo + k * stepOf lo hi L

theorem step_total (lo hi : K) (L : Nat) : (2 : K) ^ (L + 1) * stepOf lo hi L = hi - lo := by
  unfold stepOf
  rw [pow_succ]
  have : (2 : K) ^ L ≠ 0 := by positivity
  field_simp

theorem step_succ (lo hi : K) (L : Nat) : stepOf lo hi L = 2 * stepOf lo hi (L + 1) := by
  unfold stepOf
  rw [pow_succ]
  have : (2 : K) ^ L ≠ 0 := by positivity
  field_simp

/-- on the lattice the shift is a multiple -1, 0 or 1 of the step -/
theorem shift_lattice (lo hi c : K) (h : lo ≤ hi) (L : Nat) (hc : OnLattice lo hi L c) :
    ∃ e : ℤ, (e = -1 ∨ e = 0 ∨ e = 1) ∧ shiftOf lo hi (stepOf lo hi L) c = e * stepOf lo hi L := by
  obtain ⟨k, k0, k1, hk⟩ := hc
  obtain ⟨s0, _⟩ := step_bounds lo hi h L
  have htot := step_total lo hi L
  unfold shiftOf
  split
  · rename_i hgt
    refine ⟨-1, Or.inl rfl, ?_⟩
    have hke : k = 2 ^ (L + 1) := by
      by_contra hne
      have hk1 : k + 1 ≤ 2 ^ (L + 1) := by omega
      have hkK : ((k : K) + 1) ≤ 2 ^ (L + 1) := by exact_mod_cast hk1
      have := mul_le_mul_of_nonneg_right hkK s0
      rw [htot] at this
      have : c + stepOf lo hi L ≤ hi := by rw [hk]; linarith
      linarith
    have : c = hi := by
      rw [hk, hke]; push_cast; rw [htot]; ring
    rw [this]; push_cast; ring
  · split
    · rename_i hlt
      refine ⟨1, Or.inr (Or.inr rfl), ?_⟩
      have hke : k = 0 := by
        by_contra hne
        have hk1 : 1 ≤ k := by omega
        have hkK : (1 : K) ≤ k := by exact_mod_cast hk1
        have := mul_le_mul_of_nonneg_right hkK s0
        have : lo ≤ c - stepOf lo hi L := by rw [hk]; linarith
        linarith
      rw [hk, hke]; push_cast; ring
    · exact ⟨0, Or.inr (Or.inl rfl), by simp⟩

/-- the next level's lattice contains the coordinates of this level's grid -/
theorem lattice_next (lo hi c p : K) (h : lo ≤ hi) (L : Nat) (hc : OnLattice lo hi L c) (e : K) (he : e = shiftOf lo hi (stepOf lo hi L) c)
    (hp : ∃ m : ℤ, (m = -2 ∨ m = -1 ∨ m = 0 ∨ m = 1 ∨ m = 2) ∧ 2 * p = m) :
    OnLattice lo hi (L + 1) (p * stepOf lo hi L + c + e) := by
  obtain ⟨m, hm, hmp⟩ := hp
  have hp1 : -1 ≤ p ∧ p ≤ 1 := by
    have h1 : (-2 : ℤ) ≤ m ∧ m ≤ 2 := by omega
    have h2 : ((-2 : ℤ) : K) ≤ m ∧ (m : K) ≤ ((2 : ℤ) : K) := ⟨by exact_mod_cast h1.1, by exact_mod_cast h1.2⟩
    push_cast at h2
    constructor <;> linarith [h2.1, h2.2]
  obtain ⟨ee, hee, hes⟩ := shift_lattice lo hi c h L hc
  obtain ⟨s0, s2⟩ := step_bounds lo hi h L
  obtain ⟨b1, b2⟩ := shift_bounds lo hi _ c p s2 s0 hp1
  rw [← he] at b1 b2 hes
  obtain ⟨k, k0, k1, hk⟩ := hc
  have heq : p * stepOf lo hi L + c + e = lo + ((m + 2 * k + 2 * ee : ℤ) : K) * stepOf lo hi (L + 1) := by
    rw [hes, hk, step_succ lo hi L]
    push_cast
    rw [← hmp]; ring
  obtain ⟨t0, _⟩ := step_bounds lo hi h (L + 1)
  rcases t0.eq_or_lt with t0 | t0
  · -- degenerate range
    refine ⟨0, le_rfl, by positivity, ?_⟩
    rw [heq, ← t0]; simp
  · refine ⟨m + 2 * k + 2 * ee, ?_, ?_, heq⟩
    · rw [heq] at b1
      have : 0 ≤ ((m + 2 * k + 2 * ee : ℤ) : K) * stepOf lo hi (L + 1) := by linarith
      have := nonneg_of_mul_nonneg_left this t0
      exact_mod_cast this
    · rw [heq] at b2
      have h3 : ((m + 2 * k + 2 * ee : ℤ) : K) * stepOf lo hi (L + 1) ≤ 2 ^ (L + 1 + 1) * stepOf lo hi (L + 1) := by
        rw [step_total]; linarith
      have := le_of_mul_le_mul_right h3 t0
      exact_mod_cast this

theorem pat_halves (p : K × K) (hp : p ∈ doePat) : (∃ m : ℤ, (m = -2 ∨ m = -1 ∨ m = 0 ∨ m = 1 ∨ m = 2) ∧ 2 * p.1 = m) ∧
    (∃ m : ℤ, (m = -2 ∨ m = -1 ∨ m = 0 ∨ m = 1 ∨ m = 2) ∧ 2 * p.2 = m) := by
  have e1 : ∃ m : ℤ, (m = -2 ∨ m = -1 ∨ m = 0 ∨ m = 1 ∨ m = 2) ∧ 2 * (1 : K) = m := ⟨2, by simp, by simp⟩
  have e2 : ∃ m : ℤ, (m = -2 ∨ m = -1 ∨ m = 0 ∨ m = 1 ∨ m = 2) ∧ 2 * (-1 : K) = m := ⟨-2, by simp, by simp⟩
  have e3 : ∃ m : ℤ, (m = -2 ∨ m = -1 ∨ m = 0 ∨ m = 1 ∨ m = 2) ∧ 2 * (0 : K) = m := ⟨0, by simp, by simp⟩
  have e4 : ∃ m : ℤ, (m = -2 ∨ m = -1 ∨ m = 0 ∨ m = 1 ∨ m = 2) ∧ 2 * (1 / 2 : K) = m := ⟨1, by simp, by simp⟩
  have e5 : ∃ m : ℤ, (m = -2 ∨ m = -1 ∨ m = 0 ∨ m = 1 ∨ m = 2) ∧ 2 * (-(1 / 2) : K) = m := ⟨-1, by simp, by simp⟩
  simp only [doePat, List.mem_cons, List.not_mem_nil, or_false] at hp
  rcases hp with rfl | rfl | rfl | rfl | rfl | rfl | rfl | rfl | rfl | rfl | rfl | rfl | rfl <;> constructor <;> assumption

theorem pat_corners (a b : ℤ) (ha : a = -1 ∨ a = 0 ∨ a = 1) (hb : b = -1 ∨ b = 0 ∨ b = 1) : ((a : K), (b : K)) ∈ doePat := by
  rcases ha with rfl | rfl | rfl <;> rcases hb with rfl | rfl | rfl <;> simp [doePat]

/-- the centre is a point of its grid, even after the grid was moved into the bounds -/
theorem center_mem (lo hi c : K × K) (L : Nat) (h1 : lo.1 ≤ hi.1) (h2 : lo.2 ≤ hi.2) (hc1 : OnLattice lo.1 hi.1 L c.1)
    (hc2 : OnLattice lo.2 hi.2 L c.2) : c ∈ calcGrid lo hi c L := by
  obtain ⟨e, he, hes⟩ := shift_lattice lo.1 hi.1 c.1 h1 L hc1
  obtain ⟨f, hf, hfs⟩ := shift_lattice lo.2 hi.2 c.2 h2 L hc2
  rw [calcGrid_eq lo hi c L h1 h2, hes, hfs]
  refine List.mem_map.2 ⟨(((-e : ℤ) : K), ((-f : ℤ) : K)), pat_corners _ _ (by omega) (by omega), ?_⟩
  obtain ⟨c1, c2⟩ := c
  simp only [Prod.mk.injEq]
  push_cast
  constructor <;> ring

theorem doe_invariant {V : Type} [LinearOrder V] (validate : K × K → V) (lo hi : K × K) (h1 : lo.1 ≤ hi.1) (h2 : lo.2 ≤ hi.2) (n : Nat) :
    OnLattice lo.1 hi.1 n (doeSearch validate lo hi n).1.1 ∧ OnLattice lo.2 hi.2 n (doeSearch validate lo hi n).1.2 ∧
    (∀ q ∈ (doeSearch validate lo hi n).2, validate q ≤ validate (doeSearch validate lo hi n).1) ∧
    (∀ q ∈ (doeSearch validate lo hi n).2, lo.1 ≤ q.1 ∧ q.1 ≤ hi.1 ∧ lo.2 ≤ q.2 ∧ q.2 ≤ hi.2) ∧
    (0 < n → (doeSearch validate lo hi n).1 ∈ (doeSearch validate lo hi n).2) ∧ (doeSearch validate lo hi n).2.length = 13 * n := by
  induction n with
  | zero =>
    have hl : ∀ a b : K, OnLattice a b 0 (a + (b - a) / 2) := fun a b => ⟨1, by norm_num, by norm_num, by simp [stepOf]⟩
    exact ⟨hl _ _, hl _ _, by simp [doeSearch], by simp [doeSearch], by simp, by simp [doeSearch]⟩
  | succ n ih =>
    have hstep : doeSearch validate lo hi (n + 1) = doeLevel validate lo hi (doeSearch validate lo hi n) n := by
      simp [doeSearch, List.range_succ, List.foldl_append]
    rw [hstep]
    obtain ⟨i1, i2, i3, i4, i5, i6⟩ := ih
    generalize doeSearch validate lo hi n = s at *
    obtain ⟨gl, gb⟩ := C32_grid_bounds lo hi s.1 n h1 h2
    have hcm := center_mem lo hi s.1 n h1 h2 i1 i2
    obtain ⟨b, hb⟩ := firstMax_isSome validate (calcGrid lo hi s.1 n) (List.ne_nil_of_mem hcm)
    obtain ⟨hbm, hbmax⟩ := firstMax_spec _ _ _ hb
    have hres : doeLevel validate lo hi s n = (b, s.2 ++ calcGrid lo hi s.1 n) := by simp [doeLevel, hb]
    rw [hres]
    simp only
    have hbm' := hbm
    rw [calcGrid_eq lo hi s.1 n h1 h2] at hbm'
    obtain ⟨p, hp, hpe⟩ := List.mem_map.1 hbm'
    obtain ⟨p1, p2⟩ := pat_halves p hp
    refine ⟨?_, ?_, ?_, ?_, ?_, ?_⟩
    · rw [← hpe]; exact lattice_next lo.1 hi.1 s.1.1 p.1 h1 n i1 _ rfl p1
    · rw [← hpe]; exact lattice_next lo.2 hi.2 s.1.2 p.2 h2 n i2 _ rfl p2
    · intro q hq
      rcases List.mem_append.1 hq with hq | hq
      · exact le_trans (i3 q hq) (hbmax _ hcm)
      · exact hbmax q hq
    · intro q hq
      rcases List.mem_append.1 hq with hq | hq
      · exact i4 q hq
      · exact gb q hq
    · intro _; exact List.mem_append.2 (Or.inr hbm)
    · rw [List.length_append, i6, gl]; omega

/-- **C32.** A DOE search of `n ≥ 1` levels validates 13 points per level, all inside the bounds, and returns one of them with the
largest performance of all points validated in the whole search. With no level it returns the (unvalidated) middle of the bounds. -/
theorem C32_search {V : Type} [LinearOrder V] (validate : K × K → V) (lo hi : K × K) (h1 : lo.1 ≤ hi.1) (h2 : lo.2 ≤ hi.2) (n : Nat) :
    (doeSearch validate lo hi n).2.length = 13 * n ∧
    (∀ q ∈ (doeSearch validate lo hi n).2, lo.1 ≤ q.1 ∧ q.1 ≤ hi.1 ∧ lo.2 ≤ q.2 ∧ q.2 ≤ hi.2) ∧
    (0 < n → (doeSearch validate lo hi n).1 ∈ (doeSearch validate lo hi n).2) ∧
    (∀ q ∈ (doeSearch validate lo hi n).2, validate q ≤ validate (doeSearch validate lo hi n).1) ∧
    (doeSearch validate lo hi 0).1 = (lo.1 + (hi.1 - lo.1) / 2, lo.2 + (hi.2 - lo.2) / 2) := by
  obtain ⟨_, _, i3, i4, i5, i6⟩ := doe_invariant validate lo hi h1 h2 n
  exact ⟨i6, i4, i5, i3, rfl⟩

example : (-5 : ℚ) ≤ 15 ∧ (-15 : ℚ) ≤ 3 := by norm_num

end doe

end Verif.Props

import Verif.Model.Resampling
import Mathlib.Tactic.Linarith
import Mathlib.Tactic.Ring
import Mathlib.Tactic.NormNum
import Mathlib.Tactic.Positivity
import Mathlib.Data.Rat.Floor
/-
Properties of adaptive resampling.
-/
namespace Verif.Resampling

open Verif.DataSet (Err)

variable {K : Type} [Field K] [LinearOrder K] [FloorRing K] [IsStrictOrderedRing K]

omit [FloorRing K] in
theorem median_mem_range (l : List K) (hl : l ≠ []) (lo hi : K) (h : ∀ x ∈ l, lo ≤ x ∧ x ≤ hi) : lo ≤ median l ∧ median l ≤ hi := by
  unfold median
  have hlen : (l.insertionSort (· ≤ ·)).length = l.length := List.length_insertionSort _ _
  have hpos : 0 < l.length := List.length_pos_iff.2 hl
  have hm : ∀ i < l.length, lo ≤ (l.insertionSort (· ≤ ·)).getD i 0 ∧ (l.insertionSort (· ≤ ·)).getD i 0 ≤ hi := by
    intro i hi'
    have hi2 : i < (l.insertionSort (· ≤ ·)).length := by rw [hlen]; exact hi'
    rw [List.getD_eq_getElem?_getD, List.getElem?_eq_getElem hi2, Option.getD_some]
    exact h _ ((List.mem_insertionSort _).1 (List.getElem_mem hi2))
  simp only [hlen]
  split_ifs
  · exact hm _ (by omega)
  · obtain ⟨a, b⟩ := hm (l.length / 2 - 1) (by omega)
    obtain ⟨a', b'⟩ := hm (l.length / 2) (by omega)
    constructor
    · rw [le_div_iff₀ (by norm_num)]; linarith
    · rw [div_le_iff₀ (by norm_num)]; linarith

/-- The states that occur. -/
structure Inv (c : Config K) (s : State K) : Prop where
  len : s.recents.length = c.batchsize
  filled : ∀ i, i < s.numEvals → i < c.batchsize → ∃ v, s.recents[i]? = some (some v)
  one : 1 ≤ s.resampleOver

omit [IsStrictOrderedRing K] in
theorem inv_init (c : Config K) : Inv c (init c) := ⟨by simp [init], fun i h => by simp [init] at h, le_refl _⟩

omit [IsStrictOrderedRing K] [FloorRing K] in
theorem mapM_filled : ∀ l : List (Option K), (∀ x ∈ l, ∃ v, x = some v) → ∃ xs : List K, l.mapM id = some xs ∧ l = xs.map some
  | [], _ => ⟨[], rfl, rfl⟩
  | x :: l, h => by
    obtain ⟨v, rfl⟩ := h x (by simp)
    obtain ⟨xs, h1, h2⟩ := mapM_filled l fun y hy => h y (List.mem_cons_of_mem _ hy)
    exact ⟨v :: xs, by rw [List.mapM_cons, h1]; rfl, by rw [h2]; rfl⟩

omit [IsStrictOrderedRing K] in
theorem all_filled (c : Config K) (s : State K) (h : Inv c s) (hn : c.batchsize ≤ s.numEvals) : ∃ xs : List K, s.recents = xs.map some := by
  obtain ⟨xs, -, e⟩ := mapM_filled s.recents (by
    intro x hx
    obtain ⟨i, hi, rfl⟩ := List.getElem_of_mem hx
    have : i < c.batchsize := h.len ▸ hi
    obtain ⟨v, hv⟩ := h.filled i (by omega) this
    rw [List.getElem?_eq_getElem hi, Option.some.injEq] at hv
    exact ⟨v, hv⟩)
  exact ⟨xs, e⟩

omit [IsStrictOrderedRing K] [FloorRing K] in
theorem mapM_id_some (xs : List K) : (xs.map some).mapM id = some xs := by
  induction xs with
  | nil => rfl
  | cons x xs ih => rw [List.map_cons, List.mapM_cons, ih]; rfl

omit [IsStrictOrderedRing K] in
theorem set_filled (c : Config K) (s : State K) (h : Inv c s) (hb : c.batchsize ≠ 0) (r : K) :
    ∀ i, i < s.numEvals + 1 → i < c.batchsize → ∃ v, (s.recents.set (s.numEvals % c.batchsize) (some r))[i]? = some (some v) := by
  intro i hi hib
  by_cases e : s.numEvals % c.batchsize = i
  · refine ⟨r, ?_⟩
    rw [e, List.getElem?_set_self (by rw [h.len]; exact hib)]
  · rw [List.getElem?_set_ne e]
    apply h.filled i _ hib
    by_contra hge
    have : i = s.numEvals := by omega
    subst this
    exact e (Nat.mod_eq_of_lt hib)

/-- What the rank change counts: remembered values strictly between the two results. -/
theorem between_iff (x res alt : K) : (x - res) * (x - alt) < 0 ↔ (res < x ∧ x < alt) ∨ (alt < x ∧ x < res) := by
  rw [mul_neg_iff]
  constructor
  · rintro (⟨a, b⟩ | ⟨a, b⟩)
    · left; constructor <;> linarith
    · right; constructor <;> linarith
  · rintro (⟨a, b⟩ | ⟨a, b⟩)
    · left; constructor <;> linarith
    · right; constructor <;> linarith

/-- The bounds that make sense. -/
structure Sane (c : Config K) : Prop where
  batch : c.batchsize ≠ 0
  factor : 1 ≤ c.updateFactor
  most : ∀ m, c.maxResampling = some m → 1 ≤ m

/-- `resample_over` after a comparison. -/
def nextOver (c : Config K) (over : K) (rc : Nat) : K :=
  if (rc : K) ≥ c.threshold * ((c.batchsize : K) - 1) then
    (match c.maxResampling with | some m => min (over * c.updateFactor) m | none => over * c.updateFactor)
  else if rc = 0 then max (over / c.updateFactor) 1 else over

theorem adapt_eq (c : Config K) (s : State K) (xs : List K) (h : s.recents = xs.map some) (res alt : K) :
    adapt c s res alt = .ok (nextOver c s.resampleOver (xs.tail.countP fun x => (x - res) * (x - alt) < 0)) := by
  unfold adapt rankChange
  rw [h, ← List.map_tail, mapM_id_some]
  simp only [Except.map]
  congr 1
  unfold nextOver
  split_ifs
  · cases hm : c.maxResampling with
    | none => rfl
    | some m =>
      simp only
      split_ifs with h1
      · rw [min_eq_right h1.le]
      · rw [min_eq_left (not_lt.1 h1)]
  · rfl
  · rfl

theorem nextOver_ge (c : Config K) (hc : Sane c) (over : K) (h : 1 ≤ over) (rc : Nat) : 1 ≤ nextOver c over rc := by
  unfold nextOver
  have h1 : 1 ≤ over * c.updateFactor := one_le_mul_of_one_le_of_one_le h hc.factor
  split_ifs
  · cases hm : c.maxResampling with
    | none => exact h1
    | some m => exact le_min h1 (hc.most m hm)
  · exact le_max_right _ _
  · exact h

theorem nextOver_le (c : Config K) (hc : Sane c) (over m : K) (hm : c.maxResampling = some m) (h : over ≤ m) (h1 : 1 ≤ over) (rc : Nat) : nextOver c over rc ≤ m := by
  unfold nextOver
  split_ifs
  · rw [hm]; exact min_le_right _ _
  · refine max_le ?_ (h1.trans h)
    exact (div_le_self (by linarith) hc.factor).trans h
  · exact h

theorem samples_bounds (f : Nat → K) (over : K) (h1 : 1 ≤ over) (k : Nat) (lo hi : K) (h : ∀ i, lo ≤ f i ∧ f i ≤ hi) : lo ≤ median (samples f over k) ∧ median (samples f over k) ≤ hi := by
  apply median_mem_range
  · unfold samples
    have : 1 ≤ ⌊over⌋₊ := Nat.one_le_floor_iff _ |>.2 h1
    intro e
    have := congrArg List.length e
    rw [List.length_map, List.length_range, List.length_nil] at this
    omega
  · intro x hx
    obtain ⟨i, -, rfl⟩ := List.mem_map.1 hx
    exact h _

/-- One call. -/
theorem call_spec (c : Config K) (hc : Sane c) (f : Nat → K) (s : State K) (hs : Inv c s) :
    ∃ v s', call c f s = .ok (v, s') ∧ Inv c s' ∧ s'.numEvals = s.numEvals + 1 ∧ (∀ lo hi, (∀ i, lo ≤ f i ∧ f i ≤ hi) → lo ≤ v ∧ v ≤ hi) ∧
      (∀ m, c.maxResampling = some m → s.resampleOver ≤ m → s'.resampleOver ≤ m) ∧
      (s.numEvals % c.batchsize = 0 ∧ s.numEvals > 0 → s'.calls = s.calls + 2 * ⌊s.resampleOver⌋₊ ∧
        ∃ (xs : List K) (res alt : K), s.recents = xs.map some ∧ res = median (samples f s.resampleOver 0) ∧ alt = median (samples f s.resampleOver ⌊s.resampleOver⌋₊) ∧ v = (res + alt) / 2 ∧
          s'.resampleOver = nextOver c s.resampleOver (xs.tail.countP fun x => (x - res) * (x - alt) < 0)) ∧
      (¬(s.numEvals % c.batchsize = 0 ∧ s.numEvals > 0) → s'.calls = s.calls + ⌊s.resampleOver⌋₊ ∧ v = median (samples f s.resampleOver 0) ∧ s'.resampleOver = s.resampleOver) := by
  have hb := hc.batch
  unfold call
  rw [if_neg hb]
  by_cases h : s.numEvals % c.batchsize = 0 ∧ s.numEvals > 0
  · obtain ⟨xs, hx⟩ := all_filled c s hs (Nat.le_of_dvd h.2 (Nat.dvd_of_mod_eq_zero h.1))
    rw [if_pos h]
    simp only
    rw [adapt_eq c s xs hx]
    refine ⟨_, _, rfl, ⟨by simpa using hs.len, set_filled c s hs hb _, nextOver_ge c hc _ hs.one _⟩, rfl, ?_, fun m hm h' => nextOver_le c hc _ m hm h' hs.one _, fun _ => ⟨rfl, xs, _, _, hx, rfl, rfl, by norm_num; ring, rfl⟩, fun h' => absurd h h'⟩
    intro lo hi hf
    obtain ⟨a, b⟩ := samples_bounds f s.resampleOver hs.one 0 lo hi hf
    obtain ⟨a', b'⟩ := samples_bounds f s.resampleOver hs.one ⌊s.resampleOver⌋₊ lo hi hf
    constructor <;> norm_num <;> linarith
  · rw [if_neg h]
    exact ⟨_, _, rfl, ⟨by simpa using hs.len, set_filled c s hs hb _, hs.one⟩, rfl, fun lo hi hf => samples_bounds f s.resampleOver hs.one 0 lo hi hf, fun m _ h' => h', fun h' => absurd h' h, fun _ => ⟨rfl, rfl, rfl⟩⟩

end Verif.Resampling

namespace Verif.Props

open Verif.Resampling
open Verif.DataSet (Err)

variable {K : Type} [Field K] [LinearOrder K] [FloorRing K] [IsStrictOrderedRing K]

/-- The default configuration for batches of ten. -/
private def dflt : Config ℚ := ⟨10, 1.5, 0.2, some 20⟩

private theorem dflt_sane : Sane dflt := ⟨by simp [dflt], by norm_num [dflt], by simp [dflt]⟩

/-- Whatever values the noisy function returns in whatever sequence of calls, no call fails, at least one evaluation is made in each call, the
number of evaluations stays below the limit, if there is one, and each returned value lies in every interval that contains the values of
the function at the point. -/
theorem C145_range (c : Config K) (hc : Sane c) (fs : List (Nat → K)) : ∃ vs s, calls c fs (init c) = .ok (vs, s) ∧ vs.length = fs.length ∧ 1 ≤ ⌊s.resampleOver⌋₊ ∧
    (∀ m, c.maxResampling = some m → s.resampleOver ≤ m) ∧ ∀ (i : Nat) lo hi v f, fs[i]? = some f → vs[i]? = some v → (∀ k, lo ≤ f k ∧ f k ≤ hi) → lo ≤ v ∧ v ≤ hi := by
  have key : ∀ (fs : List (Nat → K)) (s0 : State K), Inv c s0 → (∀ m, c.maxResampling = some m → s0.resampleOver ≤ m) → ∃ vs s, calls c fs s0 = .ok (vs, s) ∧ vs.length = fs.length ∧ 1 ≤ ⌊s.resampleOver⌋₊ ∧
      (∀ m, c.maxResampling = some m → s.resampleOver ≤ m) ∧ ∀ (i : Nat) lo hi v f, fs[i]? = some f → vs[i]? = some v → (∀ k, lo ≤ f k ∧ f k ≤ hi) → lo ≤ v ∧ v ≤ hi := by
    intro fs
    induction fs with
    | nil => intro s0 h0 hm; exact ⟨[], s0, rfl, rfl, Nat.one_le_floor_iff _ |>.2 h0.one, hm, by simp⟩
    | cons f fs ih =>
      intro s0 h0 hm
      obtain ⟨v, s', e, hi, -, hb, hmx, -⟩ := call_spec c hc f s0 h0
      obtain ⟨vs, s, e2, h1, h2, h3, h4⟩ := ih s' hi fun m h => hmx m h (hm m h)
      refine ⟨v :: vs, s, by rw [calls, e]; simp only [e2]; rfl, by simp [h1], h2, h3, ?_⟩
      intro i lo hi w g hg hw hr
      cases i with
      | zero =>
        simp at hg hw
        subst hg; subst hw
        exact hb lo hi hr
      | succ i => exact h4 i lo hi w g (by simpa using hg) (by simpa using hw) hr
  exact key fs (init c) (inv_init c) fun m h => hc.most m h

example : Sane dflt := dflt_sane

/-- For a function without noise, batches of at least two and a positive threshold, every call returns the exact value, the number of evaluations per point stays
one, and in all `n` calls need `n` evaluations and one more at the beginning of each batch but the first. -/
theorem C145_exact (c : Config K) (hb : 2 ≤ c.batchsize) (hf : 1 ≤ c.updateFactor) (hm : ∀ m, c.maxResampling = some m → 1 ≤ m) (ht : 0 < c.threshold) (vals : List K) :
    ∃ s, calls c (vals.map fun v _ => v) (init c) = .ok (vals, s) ∧ s.resampleOver = 1 ∧ s.calls = vals.length + (vals.length - 1) / c.batchsize := by
  have hc : Sane c := ⟨by omega, hf, hm⟩
  have hb1 : (1 : K) < c.batchsize := by exact_mod_cast hb
  have key : ∀ (vals : List K) (s0 : State K), Inv c s0 → s0.resampleOver = 1 → s0.calls = s0.numEvals + (s0.numEvals - 1) / c.batchsize → ∃ s, calls c (vals.map fun v _ => v) s0 = .ok (vals, s) ∧ s.resampleOver = 1 ∧
      s.calls = (s0.numEvals + vals.length) + (s0.numEvals + vals.length - 1) / c.batchsize := by
    intro vals
    induction vals with
    | nil => intro s0 _ h1 h2; exact ⟨s0, rfl, h1, h2⟩
    | cons v vals ih =>
      intro s0 h0 h1 h2
      obtain ⟨w, s', e, hi, hn, hbd, -, hyes, hno⟩ := call_spec c hc (fun _ => v) s0 h0
      have hw : w = v := le_antisymm (hbd v v fun _ => ⟨le_refl _, le_refl _⟩).2 (hbd v v fun _ => ⟨le_refl _, le_refl _⟩).1
      subst hw
      have hfl : ⌊s0.resampleOver⌋₊ = 1 := by rw [h1]; exact Nat.floor_one
      have hover : s'.resampleOver = 1 ∧ s'.calls = s'.numEvals + (s'.numEvals - 1) / c.batchsize := by
        by_cases hcase : s0.numEvals % c.batchsize = 0 ∧ s0.numEvals > 0
        · obtain ⟨hcalls, xs, res, alt, -, hres, halt, -, ho⟩ := hyes hcase
          have hr := samples_bounds (fun _ => w) s0.resampleOver h0.one 0 w w fun _ => ⟨le_refl _, le_refl _⟩
          have ha := samples_bounds (fun _ => w) s0.resampleOver h0.one ⌊s0.resampleOver⌋₊ w w fun _ => ⟨le_refl _, le_refl _⟩
          have hrw : res = w := by rw [hres]; exact le_antisymm hr.2 hr.1
          have haw : alt = w := by rw [halt]; exact le_antisymm ha.2 ha.1
          have hz : (xs.tail.countP fun x => decide ((x - res) * (x - alt) < 0)) = 0 := by
            rw [List.countP_eq_zero]
            intro x _
            rw [hrw, haw]
            simpa using mul_self_nonneg (x - w)
          rw [hz, h1] at ho
          constructor
          · rw [ho]
            unfold nextOver
            rw [if_neg, if_pos rfl]
            · exact max_eq_right (by rw [div_le_one (by linarith)]; exact hf)
            · push Not
              simp only [Nat.cast_zero]
              exact mul_pos ht (by linarith)
          · rw [hcalls, h2, hn, hfl]
            obtain ⟨q, hq⟩ := Nat.dvd_of_mod_eq_zero hcase.1
            have hqpos : 0 < q := by
              rcases Nat.eq_zero_or_pos q with h | h
              · subst h; omega
              · exact h
            have e1 : (s0.numEvals + 1 - 1) / c.batchsize = q := by rw [Nat.add_sub_cancel, hq, Nat.mul_div_cancel_left _ (by omega)]
            have e2 : (s0.numEvals - 1) / c.batchsize = q - 1 := by
              obtain ⟨p, rfl⟩ : ∃ p, q = p + 1 := ⟨q - 1, by omega⟩
              rw [hq, Nat.mul_add, Nat.mul_one, Nat.add_sub_cancel, Nat.add_sub_assoc (by omega), Nat.mul_add_div (by omega), Nat.div_eq_of_lt (by omega), Nat.add_zero]
            rw [e1, e2]
            omega
        · obtain ⟨hcalls, -, ho⟩ := hno hcase
          refine ⟨by rw [ho, h1], ?_⟩
          rw [hcalls, h2, hn, hfl]
          have : (s0.numEvals + 1 - 1) / c.batchsize = (s0.numEvals - 1) / c.batchsize := by
            rw [Nat.add_sub_cancel]
            rcases Nat.eq_zero_or_pos s0.numEvals with hz | hz
            · rw [hz]
            · have hmod : s0.numEvals % c.batchsize ≠ 0 := fun h => hcase ⟨h, hz⟩
              have hd := Nat.div_add_mod s0.numEvals c.batchsize
              have hlt := Nat.mod_lt s0.numEvals (show c.batchsize > 0 by omega)
              generalize s0.numEvals / c.batchsize = q at *
              generalize s0.numEvals % c.batchsize = r at *
              rw [show s0.numEvals - 1 = c.batchsize * q + (r - 1) by omega, Nat.mul_add_div (by omega), Nat.div_eq_of_lt (by omega), Nat.add_zero]
          rw [this]
          omega
      obtain ⟨s, e2, h3, h4⟩ := ih s' hi hover.1 hover.2
      refine ⟨s, by rw [List.map_cons, calls, e]; simp only [e2]; rfl, h3, ?_⟩
      rw [h4, hn, List.length_cons]
      have : s0.numEvals + 1 + vals.length = s0.numEvals + (vals.length + 1) := by omega
      rw [this]
  obtain ⟨s, h1, h2, h3⟩ := key vals (init c) (inv_init c) rfl (by simp [init])
  exact ⟨s, h1, h2, by simpa [init] using h3⟩

example : 2 ≤ dflt.batchsize ∧ (0 : ℚ) < dflt.threshold := by norm_num [dflt]

/-- At the beginning of each batch but the first, the point is evaluated a second time with the same effort, and the number of evaluations grows by the
factor (up to the limit) if the rank changes reach the threshold, and shrinks by the factor (not below one) if there are none.  A rank change is a remembered
value, other than the oldest one, strictly between the two results. -/
theorem C145_adapt (c : Config K) (hc : Sane c) (fs : List (Nat → K)) (vs : List K) (s : State K) (h : calls c fs (init c) = .ok (vs, s)) (hn : s.numEvals % c.batchsize = 0 ∧ s.numEvals > 0) (f : Nat → K) :
    ∃ (v : K) (s' : State K) (oldest : K) (xs : List K) (res alt : K), call c f s = .ok (v, s') ∧ s.recents = some oldest :: xs.map some ∧
      res = median (samples f s.resampleOver 0) ∧ alt = median (samples f s.resampleOver ⌊s.resampleOver⌋₊) ∧ v = (res + alt) / 2 ∧
      let rc := xs.countP fun x => (res < x ∧ x < alt) ∨ (alt < x ∧ x < res)
      (c.threshold * ((c.batchsize : K) - 1) ≤ rc → s'.resampleOver = match c.maxResampling with | some m => min (s.resampleOver * c.updateFactor) m | none => s.resampleOver * c.updateFactor) ∧
      (rc < c.threshold * ((c.batchsize : K) - 1) → rc = 0 → s'.resampleOver = max (s.resampleOver / c.updateFactor) 1) ∧
      (rc < c.threshold * ((c.batchsize : K) - 1) → rc ≠ 0 → s'.resampleOver = s.resampleOver) := by
  have key : ∀ (fs : List (Nat → K)) (s0 : State K) (vs : List K) (s : State K), Inv c s0 → calls c fs s0 = .ok (vs, s) → Inv c s := by
    intro fs
    induction fs with
    | nil => intro s0 vs s h0 h; simp only [calls, Except.ok.injEq, Prod.mk.injEq] at h; rw [← h.2]; exact h0
    | cons f fs ih =>
      intro s0 vs s h0 h
      obtain ⟨v, s', e, hi, -⟩ := call_spec c hc f s0 h0
      rw [calls, e] at h
      simp only at h
      cases hr : calls c fs s' with
      | error e => rw [hr] at h; exact absurd h (by simp [Except.map])
      | ok r =>
        rw [hr] at h
        simp only [Except.map, Except.ok.injEq, Prod.mk.injEq] at h
        rw [← h.2]
        exact ih s' r.1 r.2 hi hr
  have hs := key fs _ vs s (inv_init c) h
  obtain ⟨v, s', e, -, -, -, -, hyes, -⟩ := call_spec c hc f s hs
  obtain ⟨-, ys, res, alt, hx, hres, halt, hv, ho⟩ := hyes hn
  have hlen : ys.length = c.batchsize := by rw [← hs.len, hx, List.length_map]
  have hb := hc.batch
  cases ys with
  | nil => exact absurd hlen.symm (by simpa using hb)
  | cons y xs =>
    refine ⟨v, s', y, xs, res, alt, e, by rw [hx]; rfl, hres, halt, hv, ?_⟩
    have hcount : (xs.countP fun x => decide ((x - res) * (x - alt) < 0)) = xs.countP fun x => decide ((res < x ∧ x < alt) ∨ (alt < x ∧ x < res)) := by
      apply List.countP_congr
      intro x _
      simp only [decide_eq_true_eq]
      exact between_iff x res alt
    rw [List.tail_cons, hcount] at ho
    simp only
    refine ⟨fun h => ?_, fun h h' => ?_, fun h h' => ?_⟩
    · rw [ho]
      unfold nextOver
      rw [if_pos h]
    · rw [ho]
      unfold nextOver
      rw [if_neg (not_le.2 h), if_pos h']
    · rw [ho]
      unfold nextOver
      rw [if_neg (not_le.2 h), if_neg h']

example : ∃ vs s, calls dflt (List.replicate 10 fun _ => (1 : ℚ)) (init dflt) = .ok (vs, s) ∧ s.numEvals % dflt.batchsize = 0 ∧ s.numEvals > 0 := by
  refine ⟨_, _, rfl, ?_, ?_⟩ <;> decide +kernel

/-- With batches of one there is nothing to compare with, but the number of evaluations grows by the factor in every call after the first, even if the function has no
noise. -/
theorem C145_negation_single (c : Config K) (hb : c.batchsize = 1) (hf : 1 ≤ c.updateFactor) (hm : c.maxResampling = none) (v : K) (n : Nat) :
    ∃ vs s, calls c (List.replicate (n + 1) fun _ => v) (init c) = .ok (vs, s) ∧ s.resampleOver = c.updateFactor ^ n := by
  have hc : Sane c := ⟨by omega, hf, by simp [hm]⟩
  have key : ∀ (n : Nat) (s0 : State K), Inv c s0 → s0.numEvals > 0 → ∃ vs s, calls c (List.replicate n fun _ => v) s0 = .ok (vs, s) ∧ s.resampleOver = s0.resampleOver * c.updateFactor ^ n := by
    intro n
    induction n with
    | zero => intro s0 _ _; exact ⟨[], s0, rfl, by simp⟩
    | succ n ih =>
      intro s0 h0 hn
      obtain ⟨w, s', e, hi, hn', -, -, hyes, -⟩ := call_spec c hc (fun _ => v) s0 h0
      obtain ⟨-, xs, res, alt, -, -, -, -, ho⟩ := hyes ⟨by rw [hb, Nat.mod_one], hn⟩
      obtain ⟨vs, s, e2, h2⟩ := ih s' hi (by omega)
      refine ⟨w :: vs, s, by rw [List.replicate_succ, calls, e]; simp only [e2]; rfl, ?_⟩
      rw [h2, ho]
      unfold nextOver
      rw [if_pos (by rw [hb]; simp), hm]
      simp only
      ring
  obtain ⟨w, s', e, hi, hn', -, -, -, hno⟩ := call_spec c hc (fun _ => v) (init c) (inv_init c)
  obtain ⟨-, -, ho⟩ := hno (by simp [init])
  obtain ⟨vs, s, e2, h2⟩ := key n s' hi (by omega)
  refine ⟨w :: vs, s, by rw [List.replicate_succ, calls, e]; simp only [e2]; rfl, ?_⟩
  rw [h2, ho]
  simp [init]

example : ∃ c : Config ℚ, c.batchsize = 1 ∧ 1 ≤ c.updateFactor ∧ c.maxResampling = none := ⟨⟨1, 1.5, 0.2, none⟩, rfl, by norm_num, rfl⟩

/-- The first increase with the default factor has no effect: the number of evaluations, 1 times 1.5, is cut off to 1 again. -/
theorem C145_negation_increase : ⌊(1 : ℚ)⌋₊ = 1 ∧ ⌊(1 * 1.5 : ℚ)⌋₊ = 1 ∧
    ∃ s, (calls ⟨2, 1.5, 0.2, none⟩ [fun _ => (0 : ℚ), fun _ => 0, fun k => if k = 0 then -1 else 1] (init ⟨2, 1.5, 0.2, none⟩)).toOption.map (·.2) = some s ∧ s.resampleOver = 1.5 ∧ ⌊s.resampleOver⌋₊ = 1 := by
  refine ⟨by decide +kernel, by decide +kernel, _, rfl, ?_, ?_⟩ <;> decide +kernel

end Verif.Props

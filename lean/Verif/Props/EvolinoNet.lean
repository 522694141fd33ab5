import Verif.Spec.EvolinoNet
import Verif.Spec.Pinv
import Mathlib.Tactic.Linarith
import Mathlib.Tactic.Ring
import Mathlib.Algebra.BigOperators.Fin
import Mathlib.Data.List.Nodup
import Mathlib.Order.BoundedOrder.Basic
/-
Property theorems C118-C121: Evolino networks, their genomes, their evaluation and the schedule of burst mutations.
-/
namespace Verif.EvoNet
open Verif.EvoNet.Spec
open Verif.Net (Vec)
open Verif.Lstm (Trans LState setRow)

/-- what an activation needs: room for a row, empty rows of inputs, and cell states and outputs of the last step -/
structure Core (s : St) (c h : Vec ℝ) : Prop where
  room : s.hid.offset < s.hid.rows
  zin : ∀ t, s.hid.offset ≤ t → s.hidIn t = fun _ => 0
  zout : ∀ t, s.hid.offset ≤ t → s.outIn t = fun _ => 0
  first : s.hid.offset = 0 → c = (fun _ => 0) ∧ h = fun _ => 0
  later : 0 < s.hid.offset → s.hid.state (s.hid.offset - 1) = c ∧ s.hidOut (s.hid.offset - 1) = h

theorem Core.grow {s : St} {c h : Vec ℝ} (k : Core s c h) : Core (grow s) c h where
  room := by have := k.room; show s.hid.offset < 2 * s.hid.rows; omega
  zin t ht := by
    show (if t < s.hid.rows then s.hidIn t else fun _ => 0) = _
    split
    · exact k.zin t ht
    · rfl
  zout t ht := by
    show (if t < s.hid.rows then s.outIn t else fun _ => 0) = _
    split
    · exact k.zout t ht
    · rfl
  first := k.first
  later h0 := by
    have hr := k.room
    have h0' : 0 < s.hid.offset := h0
    obtain ⟨a, b⟩ := k.later h0'
    constructor
    · show (if s.hid.offset - 1 < s.hid.rows then s.hid.state (s.hid.offset - 1) else fun _ => 0) = c
      rw [if_pos (by omega), a]
    · show (if s.hid.offset - 1 < s.hid.rows then s.hidOut (s.hid.offset - 1) else fun _ => 0) = h
      rw [if_pos (by omega), b]

theorem forward_eq (T : Trans ℝ) (n : Nat) (s : LState ℝ) (x c : Vec ℝ) (h : s.offset < s.rows) (h0 : s.offset = 0 → c = fun _ => 0) (h1 : 0 < s.offset → s.state (s.offset - 1) = c) :
    let c' : Vec ℝ := fun j => T.f (x j) * T.g (x (2 * n + j)) + T.f (x (n + j)) * c j
    ∃ s', Lstm.forward T false n (fun _ => 0) s x = some (s', fun j => T.f (x (3 * n + j)) * T.h (c' j)) ∧ s'.state = setRow s.state s.offset c' ∧ s'.rows = s.rows ∧ s'.offset = s.offset := by
  intro c'
  have hc : (if 0 < s.offset then fun j => T.f (x j) * T.g (x (2 * n + j)) + T.f (x (n + j)) * s.state (s.offset - 1) j else fun j => T.f (x j) * T.g (x (2 * n + j))) = c' := by
    by_cases h2 : 0 < s.offset
    · rw [if_pos h2, h1 h2]
    · rw [if_neg h2]
      funext j
      show _ = T.f (x j) * T.g (x (2 * n + j)) + T.f (x (n + j)) * c j
      rw [h0 (by omega), mul_zero, add_zero]
  unfold Lstm.forward
  rw [if_pos h]
  simp only [Bool.false_and, Bool.false_eq_true, if_false, hc]
  exact ⟨_, rfl, rfl, rfl, rfl⟩

/-- the memory after a step with input `x` instead of the scaled last output -/
noncomputable def stepWith (T : Trans ℝ) (d : Dims) (w : Weights) (x c h : Vec ℝ) : Mem :=
  let z : Vec ℝ := fun k => times d.hid w.wrec h k + times d.out w.win x k + w.wbias k
  let c' : Nat → ℝ := fun j => T.f (z j) * T.g (z (2 * d.hid + j)) + T.f (z (d.hid + j)) * c j
  let h' : Nat → ℝ := fun j => T.f (z (3 * d.hid + j)) * T.h (c' j)
  { c := c', h := h', y := fun o => times d.hid w.wout h' o }

theorem times_zero (n : Nat) (w : Vec ℝ) (k : Nat) : times n w (fun _ => 0) k = 0 := by simp [times]

theorem activate_ok (T : Trans ℝ) (d : Dims) (w : Weights) {s : St} {c h : Vec ℝ} (k : Core s c h) (x : Vec ℝ) :
    ∃ s', activateNetwork T d w s x = some (s', (stepWith T d w x c h).y) ∧ Core s' (stepWith T d w x c h).c (stepWith T d w x c h).h ∧ s'.offset = s'.hid.offset ∧ 0 < s'.offset ∧
      s'.outOut (s'.offset - 1) = (stepWith T d w x c h).y := by
  unfold activateNetwork
  rw [if_pos k.room]
  obtain ⟨g, hg, kg, hroom⟩ : ∃ g, (if s.hid.offset + 1 < s.hid.rows then s else grow s) = g ∧ Core g c h ∧ g.hid.offset + 1 < g.hid.rows := by
    by_cases h1 : s.hid.offset + 1 < s.hid.rows
    · exact ⟨s, if_pos h1, k, h1⟩
    · refine ⟨grow s, if_neg h1, k.grow, ?_⟩
      have := k.room
      show s.hid.offset + 1 < 2 * s.hid.rows
      omega
  simp only [hg]
  have hin : (fun k => (if 0 < g.hid.offset then fun k => g.hidIn g.hid.offset k + times d.hid w.wrec (g.hidOut (g.hid.offset - 1)) k else g.hidIn g.hid.offset) k + times d.out w.win x k + w.wbias k) =
      fun k => times d.hid w.wrec h k + times d.out w.win x k + w.wbias k := by
    funext k
    congr 2
    by_cases h0 : 0 < g.hid.offset
    · rw [if_pos h0, (kg.later h0).2, kg.zin _ le_rfl, zero_add]
    · rw [if_neg h0, kg.zin _ le_rfl, (kg.first (by omega)).2, times_zero]
  rw [hin]
  obtain ⟨s', e1, e2, e3, e4⟩ := forward_eq T d.hid g.hid (fun k => times d.hid w.wrec h k + times d.out w.win x k + w.wbias k) c (by omega) (fun h0 => (kg.first h0).1) (fun h0 => (kg.later h0).1)
  have hz : (fun j => g.outIn g.hid.offset j + times d.hid w.wout (stepWith T d w x c h).h j) = (stepWith T d w x c h).y := by
    funext j
    rw [kg.zout _ le_rfl, zero_add]
    rfl
  rw [e1]
  refine ⟨_, congrArg some (Prod.ext rfl hz), ?_, rfl, Nat.succ_pos _, ?_⟩
  · refine ⟨?_, fun t ht => ?_, fun t ht => ?_, fun h0 => ?_, fun h0 => ⟨?_, ?_⟩⟩
    · show g.hid.offset + 1 < s'.rows
      omega
    · show (if t = g.hid.offset then _ else g.hidIn t) = _
      have ht' : g.hid.offset + 1 ≤ t := ht
      rw [if_neg (by omega)]
      exact kg.zin t (by omega)
    · show (if t = g.hid.offset then _ else g.outIn t) = _
      have ht' : g.hid.offset + 1 ≤ t := ht
      rw [if_neg (by omega)]
      exact kg.zout t (by omega)
    · exact absurd h0 (Nat.succ_ne_zero _)
    · show s'.state (g.hid.offset + 1 - 1) = _
      rw [e2, Nat.add_sub_cancel]
      exact if_pos rfl
    · show (if g.hid.offset + 1 - 1 = g.hid.offset then _ else _) = _
      rw [if_pos (Nat.add_sub_cancel ..)]
      rfl
  · show (if g.hid.offset + 1 - 1 = g.hid.offset then (fun j => g.outIn g.hid.offset j + times d.hid w.wout (stepWith T d w x c h).h j) else _) = _
    rw [if_pos (Nat.add_sub_cancel ..), hz]

/-- the network is in the state that the specification describes by `m` -/
structure Inv (s : St) (m : Mem) : Prop where
  core : Core s m.c m.h
  last : lastOutput s = m.y

theorem backproject_core (factor : ℝ) {s : St} {c h : Vec ℝ} (k : Core s c h) : Core (backproject factor s).1 c h := by
  unfold backproject
  dsimp only
  split
  · exact k
  · exact ⟨k.room, k.zin, k.zout, k.first, k.later⟩

theorem step_ok (T : Trans ℝ) (d : Dims) (w : Weights) (factor : ℝ) {s : St} {m : Mem} (i : Inv s m) :
    ∃ s', activateNetwork T d w (backproject factor s).1 (backproject factor s).2 = some (s', (step T d w factor m).y) ∧ Inv s' (step T d w factor m) ∧ s'.offset = s'.hid.offset ∧ 0 < s'.offset := by
  have e : stepWith T d w (backproject factor s).2 m.c m.h = step T d w factor m := by
    have : (backproject factor s).2 = fun i => m.y i * factor := by
      show (fun j => lastOutput s j * factor) = _
      rw [i.last]
    rw [this]
    rfl
  obtain ⟨s', h1, h2, h3, h4, h5⟩ := activate_ok T d w (backproject_core factor i.core) (backproject factor s).2
  rw [e] at h1 h2 h5
  refine ⟨s', h1, ⟨h2, ?_⟩, h3, h4⟩
  unfold lastOutput
  rw [if_neg (by omega), h5]

theorem setLast_ok {s : St} {m : Mem} (i : Inv s m) (h3 : s.offset = s.hid.offset) (h4 : 0 < s.offset) (v : Vec ℝ) : Inv (setLastOutput s v) { m with y := v } := by
  refine ⟨⟨i.core.room, i.core.zin, i.core.zout, i.core.first, i.core.later⟩, ?_⟩
  show (if s.offset = 0 then _ else (if s.offset - 1 = s.offset - 1 then v else _)) = v
  rw [if_neg (by omega), if_pos rfl]

theorem washoutLoop_ok (T : Trans ℝ) (d : Dims) (w : Weights) (factor : ℝ) (seq : List (Vec ℝ)) : ∀ {s : St} {m : Mem}, Inv s m →
    ∃ s', washoutLoop T d w factor s seq = some (s', (forcedSteps T d w factor m seq).map Mem.h) ∧ Inv s' (force T d w factor m seq) := by
  induction seq with
  | nil => exact fun i => ⟨_, rfl, i⟩
  | cons v seq ih =>
    intro s m i
    obtain ⟨s1, h1, h2, h3, h4⟩ := step_ok T d w factor i
    obtain ⟨s2, g1, g2⟩ := ih (setLast_ok h2 h3 h4 v)
    refine ⟨s2, ?_, g2⟩
    have hr : s1.hidOut (s1.offset - 1) = (step T d w factor m).h := by rw [h3]; exact (h2.core.later (by omega)).2
    simp only [washoutLoop, h1, g1, hr]
    rfl

theorem generate_ok (T : Trans ℝ) (d : Dims) (w : Weights) (factor : ℝ) (n : Nat) : ∀ {s : St} {m : Mem}, Inv s m →
    ∃ s' m', generate T d w factor s n = some (s', free T d w factor m n) ∧ Inv s' m' := by
  induction n with
  | zero => exact fun i => ⟨_, _, rfl, i⟩
  | succ n ih =>
    intro s m i
    obtain ⟨s1, h1, h2, -, -⟩ := step_ok T d w factor i
    obtain ⟨s2, m2, g1, g2⟩ := ih h2
    refine ⟨s2, m2, ?_, g2⟩
    simp only [generate, h1, g1]
    rfl

theorem reset_ok (s : St) (h : 0 < s.hid.rows) : Inv (reset s) zero := by
  refine ⟨⟨h, fun _ _ => rfl, fun _ _ => rfl, fun _ => ⟨rfl, rfl⟩, fun h0 => absurd h0 (by show ¬ 0 < 0; omega)⟩, ?_⟩
  unfold lastOutput
  split <;> rfl

theorem Inv.rows {s : St} {m : Mem} (i : Inv s m) : 0 < s.hid.rows := Nat.lt_of_le_of_lt (Nat.zero_le _) i.core.room

theorem extrapolate_ok (T : Trans ℝ) (d : Dims) (w : Weights) (factor : ℝ) (s : St) (h : 0 < s.hid.rows) (seq : List (Vec ℝ)) (hs : seq ≠ []) (n : Nat) :
    ∃ s', extrapolate T d w factor s seq n = some (s', free T d w factor (force T d w factor zero seq) n) ∧ 0 < s'.hid.rows := by
  obtain ⟨s1, h1, h2⟩ := washoutLoop_ok T d w factor seq (reset_ok s h)
  obtain ⟨s2, m2, g1, g2⟩ := generate_ok T d w factor n h2
  refine ⟨s2, ?_, g2.rows⟩
  simp only [extrapolate, washout, if_neg hs, h1, g1]

/-! ### genomes -/

theorem mem_slots (dim : Nat) (indims : List Nat) (cell : Nat) (hc : cell < dim) (c k : Nat) :
    (c, k) ∈ slots dim indims cell ↔ c < indims.length ∧ k < 4 * dim * indims.getD c 0 ∧ k / indims.getD c 0 % dim = cell := by
  unfold slots
  simp only [List.mem_flatMap, List.mem_range, List.mem_map, Prod.mk.injEq]
  generalize hn : indims.getD c 0 = n
  constructor
  · rintro ⟨t, ht, c', hc', i, hi, rfl, rfl⟩
    rw [hn] at hi ⊢
    have e : i + cell * n + t * dim * n = i + n * (cell + t * dim) := by ring
    have hlt : cell + t * dim < 4 * dim := by
      have : t * dim ≤ 3 * dim := Nat.mul_le_mul_right _ (by omega)
      omega
    refine ⟨hc', ?_, ?_⟩
    · rw [e]
      calc i + n * (cell + t * dim) < n + n * (cell + t * dim) := by omega
        _ = n * (cell + t * dim + 1) := by ring
        _ ≤ n * (4 * dim) := Nat.mul_le_mul_left _ hlt
        _ = 4 * dim * n := Nat.mul_comm _ _
    · rw [e, Nat.add_mul_div_left _ _ (by omega), Nat.div_eq_of_lt hi, Nat.zero_add, Nat.add_mul_mod_self_right, Nat.mod_eq_of_lt hc]
  · rintro ⟨h1, h2, h3⟩
    have hn0 : 0 < n := Nat.pos_of_ne_zero fun h => by rw [h, Nat.mul_zero] at h2; omega
    refine ⟨k / n / dim, ?_, c, h1, k % n, ?_, rfl, ?_⟩
    · rw [Nat.div_lt_iff_lt_mul (by omega), Nat.div_lt_iff_lt_mul hn0]
      exact h2
    · rw [hn]; exact Nat.mod_lt _ hn0
    · rw [hn, ← h3]
      have e : k % n + k / n % dim * n + k / n / dim * dim * n = k % n + n * (k / n % dim + dim * (k / n / dim)) := by ring
      rw [e, Nat.mod_add_div, Nat.mod_add_div]

theorem slots_nodup (dim : Nat) (indims : List Nat) (cell : Nat) (hc : cell < dim) : (slots dim indims cell).Nodup := by
  unfold slots
  refine List.nodup_flatMap.2 ⟨fun t _ => List.nodup_flatMap.2 ⟨fun c _ => ?_, ?_⟩, ?_⟩
  · refine List.Nodup.map_on ?_ List.nodup_range
    intro i _ j _ h
    simp only [Prod.mk.injEq, true_and] at h
    omega
  · refine List.pairwise_lt_range.imp fun {a b} hab => ?_
    intro x hx hy
    simp only [List.mem_map] at hx hy
    obtain ⟨i, -, rfl⟩ := hx
    obtain ⟨j, -, h⟩ := hy
    simp only [Prod.mk.injEq] at h
    omega
  · refine List.pairwise_lt_range.imp fun {a b} hab => ?_
    rintro ⟨c, k⟩ hx hy
    simp only [List.mem_flatMap, List.mem_map, List.mem_range, Prod.mk.injEq] at hx hy
    obtain ⟨c1, -, i, hi, rfl, rfl⟩ := hx
    obtain ⟨c2, -, j, hj, rfl, h⟩ := hy
    generalize indims.getD c2 0 = n at hi hj h
    have e1 : i + cell * n + a * dim * n = i + n * (cell + dim * a) := by ring
    have e2 : j + cell * n + b * dim * n = j + n * (cell + dim * b) := by ring
    rw [e1, e2] at h
    have h1 := congrArg (· / n / dim) h
    simp only [Nat.add_mul_div_left _ _ (show 0 < n by omega), Nat.div_eq_of_lt hi, Nat.div_eq_of_lt hj, Nat.zero_add, Nat.add_mul_div_left _ _ (show 0 < dim by omega), Nat.div_eq_of_lt hc] at h1
    omega

theorem slots_length (dim : Nat) (indims : List Nat) (cell : Nat) : (slots dim indims cell).length = 4 * indims.sum := by
  have h : ∀ t, ((List.range indims.length).flatMap fun c => (List.range (indims.getD c 0)).map fun i => (c, i + cell * indims.getD c 0 + t * dim * indims.getD c 0)).length = indims.sum := by
    intro t
    rw [List.length_flatMap]
    simp only [List.length_map, List.length_range]
    congr 1
    refine List.ext_getElem (by simp) fun i h1 h2 => ?_
    simp [List.getD_eq_getElem?_getD, List.getElem?_eq_getElem h2]
  unfold slots
  rw [List.length_flatMap]
  simp only [h]
  simp
  omega

section
variable {K : Type}

theorem setCell_ok (ps : List (Nat × Nat)) (hn : ps.Nodup) : ∀ (vs : List K) (q : Nat → Nat → K), ps.length ≤ vs.length →
    ∃ q', setCell ps vs q = some q' ∧ ps.map (fun p => q' p.1 p.2) = vs.take ps.length ∧ ∀ c k, (c, k) ∉ ps → q' c k = q c k := by
  induction ps with
  | nil => exact fun vs q _ => ⟨q, rfl, rfl, fun _ _ _ => rfl⟩
  | cons p ps ih =>
    intro vs q hl
    cases vs with
    | nil => exact absurd hl (by simp)
    | cons v vs =>
      obtain ⟨hp, hn'⟩ := List.nodup_cons.1 hn
      obtain ⟨q', h1, h2, h3⟩ := ih hn' vs (fun c k => if c = p.1 ∧ k = p.2 then v else q c k) (by simpa using hl)
      refine ⟨q', h1, ?_, fun c k hck => ?_⟩
      · rw [List.map_cons, h2, List.length_cons, List.take_succ_cons, h3 p.1 p.2 hp, if_pos ⟨rfl, rfl⟩]
      · rw [List.mem_cons, not_or] at hck
        rw [h3 c k hck.2, if_neg]
        rintro ⟨rfl, rfl⟩
        exact hck.1 rfl

theorem setCell_short (ps : List (Nat × Nat)) : ∀ (vs : List K) (q : Nat → Nat → K), vs.length < ps.length → setCell ps vs q = none := by
  induction ps with
  | nil => exact fun vs q h => absurd h (by simp)
  | cons p ps ih =>
    intro vs q hl
    cases vs with
    | nil => rfl
    | cons v vs => exact ih vs _ (by simpa using hl)

theorem setCells_ok (dim : Nat) (indims : List Nat) (weights : List (List K)) (cells : List Nat) (hn : cells.Nodup) (hc : ∀ cell ∈ cells, cell < dim)
    (hw : ∀ cell ∈ cells, ∃ cw, weights[cell]? = some cw ∧ 4 * indims.sum ≤ cw.length) : ∀ q : Nat → Nat → K,
    ∃ q', setCells dim indims cells weights q = some q' ∧ (∀ cell ∈ cells, (slots dim indims cell).map (fun p => q' p.1 p.2) = (weights.getD cell []).take (4 * indims.sum)) ∧
      ∀ c k, (∀ cell ∈ cells, (c, k) ∉ slots dim indims cell) → q' c k = q c k := by
  induction cells with
  | nil => exact fun q => ⟨q, rfl, fun _ h => absurd h (by simp), fun _ _ _ => rfl⟩
  | cons cell cells ih =>
    intro q
    obtain ⟨hcell, hn'⟩ := List.nodup_cons.1 hn
    obtain ⟨cw, e1, e2⟩ := hw cell List.mem_cons_self
    obtain ⟨q1, a1, a2, a3⟩ := setCell_ok (slots dim indims cell) (slots_nodup dim indims cell (hc cell List.mem_cons_self)) cw q (by rw [slots_length]; exact e2)
    obtain ⟨q2, b1, b2, b3⟩ := ih hn' (fun x hx => hc x (List.mem_cons_of_mem _ hx)) (fun x hx => hw x (List.mem_cons_of_mem _ hx)) q1
    refine ⟨q2, ?_, ?_, ?_⟩
    · simp only [setCells, e1, a1, b1]
    · intro x hx
      rcases List.mem_cons.1 hx with rfl | hx
      · rw [List.getD_eq_getElem?_getD, e1, Option.getD_some, ← slots_length dim indims x, ← a2]
        refine List.map_congr_left fun p hp => b3 p.1 p.2 fun y hy hp' => ?_
        have m1 := (mem_slots dim indims x (hc x List.mem_cons_self) p.1 p.2).1 hp
        have m2 := (mem_slots dim indims y (hc y (List.mem_cons_of_mem _ hy)) p.1 p.2).1 hp'
        exact hcell (by rw [← m1.2.2, m2.2.2]; exact hy)
      · exact b2 x hx
    · intro c k h
      rw [b3 c k fun x hx => h x (List.mem_cons_of_mem _ hx), a3 c k (h cell List.mem_cons_self)]

theorem setCells_short (dim : Nat) (indims : List Nat) (weights : List (List K)) (cells : List Nat) (h : ∃ cell ∈ cells, (weights.getD cell []).length < 4 * indims.sum) :
    ∀ q : Nat → Nat → K, setCells dim indims cells weights q = none := by
  induction cells with
  | nil => exact absurd h (by simp)
  | cons cell cells ih =>
    intro q
    obtain ⟨x, hx, hl⟩ := h
    unfold setCells
    rcases List.mem_cons.1 hx with rfl | hx
    · cases e : weights[x]? with
      | none => rfl
      | some cw =>
        rw [List.getD_eq_getElem?_getD, e, Option.getD_some] at hl
        dsimp only
        rw [setCell_short _ _ _ (by rw [slots_length]; exact hl)]
    · cases e : weights[cell]? with
      | none => rfl
      | some cw =>
        dsimp only
        cases setCell (slots dim indims cell) cw q with
        | none => rfl
        | some q' => exact ih ⟨x, hx, hl⟩ q'

end

/-! ### evaluation -/

theorem force_wout (T : Trans ℝ) (d : Dims) (w : Weights) (a : Vec ℝ) (factor : ℝ) (seq : List (Vec ℝ)) : ∀ m, force T d { w with wout := a } factor m seq = force T d w factor m seq := by
  induction seq with
  | nil => exact fun _ => rfl
  | cons v seq ih => exact fun m => ih _

theorem forced_wout (T : Trans ℝ) (d : Dims) (w : Weights) (a : Vec ℝ) (factor : ℝ) (seq : List (Vec ℝ)) :
    ∀ m, forcedSteps T d { w with wout := a } factor m seq = (forcedSteps T d w factor m seq).map fun p => { p with y := times d.hid a p.h } := by
  induction seq with
  | nil => exact fun _ => rfl
  | cons v seq ih =>
    intro m
    show _ :: _ = _ :: _
    exact congrArg₂ List.cons rfl (ih _)

theorem forced_length (T : Trans ℝ) (d : Dims) (w : Weights) (factor : ℝ) (seq : List (Vec ℝ)) : ∀ m, (forcedSteps T d w factor m seq).length = seq.length := by
  induction seq with
  | nil => exact fun _ => rfl
  | cons v seq ih => intro m; simp [forcedSteps, ih]

/-- the raw outputs of a training sequence after a washout sequence -/
noncomputable def phi (T : Trans ℝ) (d : Dims) (w : Weights) (factor : ℝ) (q : List (Vec ℝ) × List (Vec ℝ)) : List (Vec ℝ) :=
  (forcedSteps T d w factor (force T d w factor zero q.1) q.2).map Mem.h

theorem predictionError_eq (T : Trans ℝ) (d : Dims) (w : Weights) (a : Vec ℝ) (factor : ℝ) (q : List (Vec ℝ) × List (Vec ℝ)) (o : Nat) :
    predictionError T d { w with wout := a } factor q.1 q.2 o = (((phi T d w factor q).zip q.2).map fun p => (times d.hid a p.1 o - p.2 o) ^ 2).sum := by
  unfold predictionError phi
  rw [force_wout, forced_wout, List.zip_map_left, List.zip_map_left, List.map_map, List.map_map]
  rfl

theorem errors_eq (T : Trans ℝ) (d : Dims) (w : Weights) (a : Vec ℝ) (factor : ℝ) (qs : List (List (Vec ℝ) × List (Vec ℝ))) (o : Nat) :
    (qs.map fun q => predictionError T d { w with wout := a } factor q.1 q.2 o).sum =
      ((((qs.map (phi T d w factor)).flatten).zip (qs.map Prod.snd).flatten).map fun p => (times d.hid a p.1 o - p.2 o) ^ 2).sum := by
  induction qs with
  | nil => rfl
  | cons q qs ih =>
    rw [List.map_cons, List.sum_cons, ih, predictionError_eq, List.map_cons, List.map_cons, List.flatten_cons, List.flatten_cons, List.zip_append, List.map_append, List.sum_append]
    simp [phi, forced_length]

theorem sum_zip (rows targets : List (Vec ℝ)) (h : rows.length = targets.length) (f : Vec ℝ × Vec ℝ → ℝ) :
    ((rows.zip targets).map f).sum = ∑ t : Fin rows.length, f (rows[t], targets.getD t fun _ => 0) := by
  rw [← List.sum_ofFn]
  congr 1
  refine List.ext_getElem (by simp [h]) fun i h1 h2 => ?_
  have hi : i < targets.length := by simp at h1; omega
  simp [List.getD_eq_getElem?_getD, List.getElem?_eq_getElem hi]

theorem outputWeights_best (hid : Nat) (rows targets : List (Vec ℝ)) (h : rows.length = targets.length) (inv : Matrix (Fin rows.length) (Fin hid) ℝ) (hp : Pinv.IsPinv (phiMatrix hid rows) inv) (a : Vec ℝ) (o : Nat) :
    ((rows.zip targets).map fun p => (times hid (outputWeights hid rows targets inv) p.1 o - p.2 o) ^ 2).sum ≤ ((rows.zip targets).map fun p => (times hid a p.1 o - p.2 o) ^ 2).sum := by
  have hp' : Pinv.IsPinv (phiMatrix hid rows).transpose inv.transpose :=
    { apa := by rw [← Matrix.transpose_mul, ← Matrix.transpose_mul, ← Matrix.mul_assoc, hp.apa]
      pap := by rw [← Matrix.transpose_mul, ← Matrix.transpose_mul, ← Matrix.mul_assoc, hp.pap]
      ap_symm := by rw [← Matrix.transpose_mul, hp.pa_symm, hp.pa_symm]
      pa_symm := by rw [← Matrix.transpose_mul, hp.ap_symm, hp.ap_symm] }
  have key : ∀ x : Vec ℝ, ((rows.zip targets).map fun p => (times hid x p.1 o - p.2 o) ^ 2).sum =
      Pinv.residual (phiMatrix hid rows).transpose (fun t => targets.getD t (fun _ => 0) o) (fun i : Fin hid => x (o * hid + i)) := by
    intro x
    rw [sum_zip rows targets h]
    unfold Pinv.residual
    refine Finset.sum_congr rfl fun t _ => ?_
    congr 2
    show ∑ i ∈ Finset.range hid, x (o * hid + i) * rows[t] i = ∑ i : Fin hid, rows[t] i * x (o * hid + i)
    rw [Finset.sum_range]
    exact Finset.sum_congr rfl fun i _ => mul_comm _ _
  have hw : (fun i : Fin hid => outputWeights hid rows targets inv (o * hid + i)) = inv.transpose.mulVec fun t => targets.getD t (fun _ => 0) o := by
    funext i
    have hh : 0 < hid := Nat.lt_of_le_of_lt (Nat.zero_le _) i.2
    unfold outputWeights
    rw [dif_pos hh]
    have e1 : (o * hid + i) / hid = o := by rw [Nat.mul_comm, Nat.mul_add_div hh, Nat.div_eq_of_lt i.2, Nat.add_zero]
    have e2 : (⟨(o * hid + i) % hid, Nat.mod_lt _ hh⟩ : Fin hid) = i := Fin.ext (by show (o * hid + i) % hid = i; rw [Nat.mul_comm, Nat.mul_add_mod, Nat.mod_eq_of_lt i.2])
    rw [e1, e2]
    exact Finset.sum_congr rfl fun t _ => mul_comm _ _
  rw [key, key, hw]
  exact Pinv.least_squares hp' _ _

/-- how a sequence is split -/
noncomputable def halves (r : ℝ) (seq : List (Vec ℝ)) : List (Vec ℝ) × List (Vec ℝ) := (seq.take ⌊r * seq.length⌋₊, seq.drop ⌊r * seq.length⌋₊)

theorem splitAll_eq (r : ℝ) (seqs : List (List (Vec ℝ))) : splitAll (.number r) seqs = some (seqs.map (halves r)) := by
  induction seqs with
  | nil => rfl
  | cons q qs ih => simp only [splitAll, trainingStart, ih]; rfl

theorem collect_ok (T : Trans ℝ) (d : Dims) (w : Weights) (factor : ℝ) (qs : List (List (Vec ℝ) × List (Vec ℝ))) (hq : ∀ q ∈ qs, q.1 ≠ [] ∧ q.2 ≠ []) : ∀ s : St, 0 < s.hid.rows →
    ∃ s', collect T d w factor s qs = some (s', qs.map (phi T d w factor)) ∧ 0 < s'.hid.rows := by
  induction qs with
  | nil => exact fun s h => ⟨s, rfl, h⟩
  | cons q qs ih =>
    intro s h
    obtain ⟨n1, n2⟩ := hq q List.mem_cons_self
    obtain ⟨s1, a1, a2⟩ := washoutLoop_ok T d w factor q.1 (reset_ok s h)
    obtain ⟨s2, b1, b2⟩ := washoutLoop_ok T d w factor q.2 a2
    obtain ⟨s3, c1, c2⟩ := ih (fun x hx => hq x (List.mem_cons_of_mem _ hx)) s2 b2.rows
    refine ⟨s3, ?_, c2⟩
    simp only [collect, washout, if_neg n1, if_neg n2, a1, b1, c1]
    rfl

theorem collect_short (T : Trans ℝ) (d : Dims) (w : Weights) (factor : ℝ) (qs : List (List (Vec ℝ) × List (Vec ℝ))) (hq : ∃ q ∈ qs, q.1 = [] ∨ q.2 = []) : ∀ s : St, collect T d w factor s qs = none := by
  induction qs with
  | nil => exact absurd hq (by simp)
  | cons q qs ih =>
    intro s
    unfold collect
    cases e1 : washout T d w factor (reset s) q.1 with
    | none => rfl
    | some p =>
      dsimp only
      cases e2 : washout T d w factor p.1 q.2 with
      | none => rfl
      | some p2 =>
        dsimp only
        obtain ⟨x, hx, hs⟩ := hq
        rcases List.mem_cons.1 hx with rfl | hx
        · rcases hs with hs | hs
          · rw [washout, if_pos hs] at e1; exact absurd e1 (by simp)
          · rw [washout, if_pos hs] at e2; exact absurd e2 (by simp)
        · rw [ih ⟨x, hx, hs⟩]

theorem outputs_ok (T : Trans ℝ) (d : Dims) (w : Weights) (factor : ℝ) (qs : List (List (Vec ℝ) × List (Vec ℝ))) (hq : ∀ q ∈ qs, q.1 ≠ [] ∧ q.2 ≠ []) : ∀ s : St, 0 < s.hid.rows →
    ∃ s', outputs T d w factor s qs = some (s', qs.map fun q => free T d w factor (force T d w factor zero q.1) q.2.length) ∧ 0 < s'.hid.rows := by
  induction qs with
  | nil => exact fun s h => ⟨s, rfl, h⟩
  | cons q qs ih =>
    intro s h
    obtain ⟨s1, a1, a2⟩ := extrapolate_ok T d w factor s h q.1 (hq q List.mem_cons_self).1 q.2.length
    obtain ⟨s2, b1, b2⟩ := ih (fun x hx => hq x (List.mem_cons_of_mem _ hx)) s1 a2
    refine ⟨s2, ?_, b2⟩
    simp only [outputs, a1, b1]
    rfl

/-! ### burst mutations -/

section
variable {F : Type} [LinearOrder F] [OrderBot F]

/-- the state after some epochs -/
def after (n : Option Nat) (s : Schedule F) (fs : List F) : Schedule F := fs.foldl (fun s f => (train n s f).1) s

omit [OrderBot F] in
theorem trainEpochs_getElem (n : Option Nat) (fs : List F) : ∀ (s : Schedule F) (k : Nat) (hk : k < fs.length),
    (trainEpochs n s fs)[k]? = some (train n (after n s (fs.take k)) fs[k]).2 := by
  induction fs with
  | nil => exact fun s k hk => absurd hk (by simp)
  | cons f fs ih =>
    intro s k hk
    cases k with
    | zero => rfl
    | succ k =>
      have := ih (train n s f).1 k (by simpa using hk)
      simpa [trainEpochs, after] using this

omit [OrderBot F] in
theorem train_facts (n : Option Nat) (u : Schedule F) (f : F) :
    (train n u f).1.total = u.total + 1 ∧ (train n u f).1.best = max u.best f ∧ ((train n u f).2.2 = true ↔ u.best < f) ∧
      ((train n u f).2.1 = true ↔ ∃ m, n = some m ∧ m + u.bestEpoch ≤ u.total + 1) ∧
      ((train n u f).1.bestEpoch = if (train n u f).2.1 = true ∨ (train n u f).2.2 = true then u.total + 1 else u.bestEpoch) := by
  have hb : ((train n u f).2.1 = true ↔ ∃ m, n = some m ∧ m + u.bestEpoch ≤ u.total + 1) := by
    have e : (train n u f).2.1 = match n with
      | none => false
      | some n => decide ((n : Int) ≤ ((u.total + 1 : Nat) : Int) - u.bestEpoch) := by
      unfold train
      dsimp only
      split <;> rfl
    rw [e]
    cases n with
    | none => simp
    | some m =>
      simp only [decide_eq_true_eq, Option.some.injEq, exists_eq_left']
      omega
  refine ⟨?_, ?_, ?_, hb, ?_⟩
  · unfold train; dsimp only; split <;> rfl
  · unfold train; dsimp only
    split
    · rename_i h; exact (max_eq_right h.le).symm
    · rename_i h; exact (max_eq_left (not_lt.1 h)).symm
  · unfold train; dsimp only
    split
    · rename_i h; simp [h]
    · rename_i h; simp [h]
  · unfold train; dsimp only
    by_cases h : u.best < f
    · rw [if_pos h]; simp
    · rw [if_neg h]; simp

/-- whether there was a burst mutation or a gain in epoch number `i` (counted from 0) -/
def event (n : Option Nat) (fs : List F) (i : Nat) : Prop :=
  ∃ p, (trainEpochs n (newSchedule : Schedule F) fs)[i]? = some p ∧ (p.1 = true ∨ p.2 = true)

theorem after_inv (n : Option Nat) (fs : List F) (k : Nat) (hk : k ≤ fs.length) :
    let s := after n (newSchedule : Schedule F) (fs.take k)
    s.total = k ∧ (∀ i (hi : i < fs.length), i < k → fs[i] ≤ s.best) ∧ (s.best = ⊥ ∨ ∃ i, ∃ hi : i < fs.length, i < k ∧ fs[i] = s.best) ∧
      (∀ i < k, event n fs i → i + 1 ≤ s.bestEpoch) ∧ (s.bestEpoch = 0 ∨ ∃ i < k, event n fs i ∧ i + 1 = s.bestEpoch) := by
  induction k with
  | zero => exact ⟨rfl, fun i _ h => absurd h (by omega), .inl rfl, fun i h => absurd h (by omega), .inl rfl⟩
  | succ k ih =>
    have hk' : k < fs.length := hk
    obtain ⟨h1, h2, h3, h4, h5⟩ := ih (by omega)
    have hs : after n (newSchedule : Schedule F) (fs.take (k + 1)) = (train n (after n newSchedule (fs.take k)) fs[k]).1 := by
      unfold after
      rw [List.take_succ_eq_append_getElem hk', List.foldl_append]
      rfl
    have he := trainEpochs_getElem n fs newSchedule k hk'
    intro s
    have hs' : s = (train n (after n newSchedule (fs.take k)) fs[k]).1 := hs
    clear_value s
    obtain ⟨t1, t2, t3, t4, t5⟩ := train_facts n (after n newSchedule (fs.take k)) fs[k]
    rw [← hs'] at t1 t2 t5
    have hev : event n fs k ↔ ((train n (after n newSchedule (fs.take k)) fs[k]).2.1 = true ∨ (train n (after n newSchedule (fs.take k)) fs[k]).2.2 = true) := by
      unfold event
      rw [he]
      simp
    refine ⟨by rw [t1, h1], fun i hi hik => ?_, ?_, fun i hik hie => ?_, ?_⟩
    · rw [t2]
      rcases Nat.lt_succ_iff_lt_or_eq.1 hik with hik | rfl
      · exact (h2 i hi hik).trans (le_max_left _ _)
      · exact le_max_right _ _
    · rw [t2]
      rcases max_choice (after n newSchedule (fs.take k)).best fs[k] with hm | hm
      · rw [hm]
        rcases h3 with h3 | ⟨i, hi, hik, h3⟩
        · exact .inl h3
        · exact .inr ⟨i, hi, by omega, h3⟩
      · exact .inr ⟨k, hk', by omega, hm.symm⟩
    · rw [t5, h1]
      rcases Nat.lt_succ_iff_lt_or_eq.1 hik with hik | rfl
      · have := h4 i hik hie
        split
        · omega
        · exact this
      · rw [if_pos (hev.1 hie)]
    · rw [t5, h1]
      by_cases hh : event n fs k
      · rw [if_pos (hev.1 hh)]
        exact .inr ⟨k, by omega, hh, rfl⟩
      · rw [if_neg (fun h => hh (hev.2 h))]
        rcases h5 with h5 | ⟨i, hik, h5, h6⟩
        · exact .inl h5
        · exact .inr ⟨i, by omega, h5, h6⟩

end

end Verif.EvoNet

namespace Verif.Props
open Verif.EvoNet
open Verif.EvoNet.Spec
open Verif.Net (Vec)
open Verif.Lstm (Trans)

/-- **C118, extrapolation.** Extrapolating a non-empty sequence gives the outputs of the LSTM network that has had the values of the sequence forced upon it, starting with empty memory, and then sees its own outputs. This does not depend on what the network was used for before: `s` is any content of the
buffers and any offset. -/
theorem C118_extrapolate (T : Trans ℝ) (d : Dims) (w : Weights) (factor : ℝ) (s : St) (h : 0 < s.hid.rows) (seq : List (Vec ℝ)) (hs : seq ≠ []) (n : Nat) :
    ∃ s', extrapolate T d w factor s seq n = some (s', free T d w factor (force T d w factor zero seq) n) ∧ 0 < s'.hid.rows := extrapolate_ok T d w factor s h seq hs n

example : 0 < new.hid.rows := by decide

/-- An empty sequence is refused. -/
theorem C118_empty (T : Trans ℝ) (d : Dims) (w : Weights) (factor : ℝ) (s : St) (n : Nat) : extrapolate T d w factor s [] n = none := rfl

/-- **C118, washout.** Forcing one sequence and then another upon the network, after a reset, is forcing both together, and returns the outputs of the LSTM cells in each step; afterwards the network generates what it would have extrapolated. -/
theorem C118_washout (T : Trans ℝ) (d : Dims) (w : Weights) (factor : ℝ) (s : St) (h : 0 < s.hid.rows) (a b : List (Vec ℝ)) (ha : a ≠ []) (hb : b ≠ []) :
    ∃ s1 s2, washout T d w factor (reset s) a = some (s1, (forcedSteps T d w factor zero a).map Mem.h) ∧
      washout T d w factor s1 b = some (s2, (forcedSteps T d w factor (force T d w factor zero a) b).map Mem.h) ∧
      ∀ n, (generate T d w factor s2 n).map Prod.snd = some (free T d w factor (force T d w factor zero (a ++ b)) n) := by
  obtain ⟨s1, a1, a2⟩ := washoutLoop_ok T d w factor a (reset_ok s h)
  obtain ⟨s2, b1, b2⟩ := washoutLoop_ok T d w factor b a2
  refine ⟨s1, s2, by rw [washout, if_neg ha, a1], by rw [washout, if_neg hb, b1], fun n => ?_⟩
  obtain ⟨s3, m3, c1, -⟩ := generate_ok T d w factor n b2
  rw [c1]
  have hf : ∀ (a : List (Vec ℝ)) (m : Mem), force T d w factor m (a ++ b) = force T d w factor (force T d w factor m a) b := by
    intro a
    induction a with
    | nil => exact fun _ => rfl
    | cons v a ih => exact fun m => ih _
  rw [hf]
  rfl

/-- **C118, output weights.** What the LSTM cells give while a sequence is forced upon the network does not depend on the output weights. -/
theorem C118_teacher (T : Trans ℝ) (d : Dims) (w : Weights) (wout : Vec ℝ) (factor : ℝ) (s : St) (h : 0 < s.hid.rows) (a : List (Vec ℝ)) :
    (washout T d { w with wout := wout } factor (reset s) a).map Prod.snd = (washout T d w factor (reset s) a).map Prod.snd := by
  by_cases ha : a = []
  · rw [washout, washout, if_pos ha, if_pos ha]
  · obtain ⟨s1, a1, -⟩ := washoutLoop_ok T d w factor a (reset_ok s h)
    obtain ⟨s2, b1, -⟩ := washoutLoop_ok T d { w with wout := wout } factor a (reset_ok s h)
    rw [washout, washout, if_neg ha, if_neg ha, a1, b1, forced_wout, List.map_map]
    rfl

/-- **C119, contents of genomes.** The chromosome of a cell holds the weights that lead to one of the four inputs of this cell (input gate, forget gate, cell, output gate), each once; `k / indim` is the number of the target of weight `k`. Chromosomes have equal lengths. -/
theorem C119_chromosome (dim : Nat) (indims : List Nat) (cell : Nat) (hc : cell < dim) :
    (∀ c k, (c, k) ∈ slots dim indims cell ↔ c < indims.length ∧ k < 4 * dim * indims.getD c 0 ∧ k / indims.getD c 0 % dim = cell) ∧
      (slots dim indims cell).Nodup ∧ (slots dim indims cell).length = 4 * indims.sum :=
  ⟨mem_slots dim indims cell hc, slots_nodup dim indims cell hc, slots_length dim indims cell⟩

example : slots 2 [2, 1] 1 = [(0, 2), (0, 3), (1, 1), (0, 6), (0, 7), (1, 3), (0, 10), (0, 11), (1, 5), (0, 14), (0, 15), (1, 7)] := by decide

/-- **C119, round trip.** Setting a genome with enough chromosomes of sufficient length succeeds; reading it back gives what was set, without surplus numbers, and all other weights are as before. -/
theorem C119_set_get {K : Type} (dim : Nat) (indims : List Nat) (weights : List (List K)) (params : Nat → Nat → K) (hl : dim ≤ weights.length) (hw : ∀ cw ∈ weights, 4 * indims.sum ≤ cw.length) :
    ∃ q, setGenome dim indims weights params = some q ∧ getGenome dim indims q = (weights.take dim).map (List.take (4 * indims.sum)) ∧
      ∀ c k, ¬ (c < indims.length ∧ k < 4 * dim * indims.getD c 0) → q c k = params c k := by
  obtain ⟨q, h1, h2, h3⟩ := setCells_ok dim indims weights (List.range dim) List.nodup_range (fun c h => List.mem_range.1 h)
    (fun c h => ⟨weights[c]'(by have := List.mem_range.1 h; omega), List.getElem?_eq_getElem _, hw _ (List.getElem_mem _)⟩) params
  refine ⟨q, h1, ?_, fun c k hck => h3 c k fun cell hcell hm => ?_⟩
  · unfold getGenome
    refine List.ext_getElem (by simp [hl]) fun i hi hi' => ?_
    have hi0 : i < dim := by simpa using hi
    rw [List.getElem_map, List.getElem_range, h2 i (List.mem_range.2 hi0), List.getElem_map, List.getElem_take, List.getD_eq_getElem?_getD, List.getElem?_eq_getElem (by omega), Option.getD_some]
  · have := (mem_slots dim indims cell (List.mem_range.1 hcell) c k).1 hm
    exact hck ⟨this.1, this.2.1⟩

example : (2 : Nat) ≤ [[1, 2, 3, 4], [5, 6, 7, 8]].length ∧ ∀ cw ∈ [[1, 2, 3, 4], [5, 6, 7, 8]], 4 * [1].sum ≤ cw.length := by decide

/-- **C119, copies.** Setting the genome of one network in another makes all weights of connections to the LSTM layer equal. -/
theorem C119_get_set {K : Type} (dim : Nat) (indims : List Nat) (params params' : Nat → Nat → K) :
    ∃ q, setGenome dim indims (getGenome dim indims params) params' = some q ∧ ∀ c k, q c k = if c < indims.length ∧ k < 4 * dim * indims.getD c 0 then params c k else params' c k := by
  obtain ⟨q, h1, h2, h3⟩ := C119_set_get dim indims (getGenome dim indims params) params' (by simp [getGenome]) (by
    intro cw hcw
    simp only [getGenome, List.mem_map] at hcw
    obtain ⟨cell, -, rfl⟩ := hcw
    rw [List.length_map, slots_length])
  refine ⟨q, h1, fun c k => ?_⟩
  by_cases hck : c < indims.length ∧ k < 4 * dim * indims.getD c 0
  · rw [if_pos hck]
    have hd : 0 < dim := Nat.pos_of_ne_zero fun h => by rw [h] at hck; simp at hck
    set cell := k / indims.getD c 0 % dim with hcell
    have hlt : cell < dim := Nat.mod_lt _ hd
    have hm := (mem_slots dim indims cell hlt c k).2 ⟨hck.1, hck.2, rfl⟩
    have e : (slots dim indims cell).map (fun p => q p.1 p.2) = (slots dim indims cell).map (fun p => params p.1 p.2) := by
      have h4 := congrArg (fun l => l[cell]?) h2
      simp only [getGenome, List.getElem?_map, List.getElem?_take, List.getElem?_range hlt, Option.map_some, if_pos hlt] at h4
      rw [Option.some.injEq] at h4
      rw [h4, List.take_of_length_le (by rw [List.length_map, slots_length])]
    exact (List.map_inj_left.1 e) (c, k) hm
  · rw [if_neg hck]
    exact h3 c k hck

/-- **C119, short genomes.** If a chromosome is missing or too short, an exception is raised. -/
theorem C119_short {K : Type} (dim : Nat) (indims : List Nat) (weights : List (List K)) (params : Nat → Nat → K) (h : ∃ cell < dim, (weights.getD cell []).length < 4 * indims.sum) :
    setGenome dim indims weights params = none :=
  setCells_short dim indims weights (List.range dim) (by obtain ⟨c, h1, h2⟩ := h; exact ⟨c, List.mem_range.2 h1, h2⟩) params

example : ∃ cell < 2, (([[1, 2, 3, 4], [5]] : List (List Nat)).getD cell []).length < 4 * [1].sum := ⟨1, by decide, by decide⟩

/-- **C119, negation (wrappers).** The genome that a NetworkWrapper gives does not bundle all input weights of the LSTM neurons: of a connection with `n` inputs it holds the first `4 * dim` weights only, so that all others, as the last one, are missing if there is more than one input. -/
theorem C119_negation_wrapper (dim nconns n c : Nat) (hd : 0 < dim) (hn : 2 ≤ n) :
    4 * dim * n - 1 < 4 * dim * n ∧ ∀ cell < dim, (c, 4 * dim * n - 1) ∉ wrapperSlots dim nconns cell := by
  have h8 : 4 * dim * 2 ≤ 4 * dim * n := Nat.mul_le_mul_left _ hn
  refine ⟨by omega, fun cell hc hm => ?_⟩
  simp only [wrapperSlots, List.mem_flatMap, List.mem_map, List.mem_range, Prod.mk.injEq] at hm
  obtain ⟨c', -, t, ht, -, e⟩ := hm
  have : t * dim ≤ 3 * dim := Nat.mul_le_mul_right _ (by omega)
  omega

/-- **C120, evaluation.** If every sequence is long enough for both parts, evaluating a network changes its output weights only, and to the best ones: no other output weights have, for any of the outputs, a smaller sum of squared errors in predicting each next value of the training parts. The outputs that are
compared to the targets are those of the network with the new weights, extrapolating each washout part. -/
theorem C120_evaluation (T : Trans ℝ) (d : Dims) (factor r : ℝ) (pinv : (rows : List (Vec ℝ)) → Matrix (Fin rows.length) (Fin d.hid) ℝ) (hp : ∀ rows, Pinv.IsPinv (phiMatrix d.hid rows) (pinv rows)) (s : St)
    (hs : 0 < s.hid.rows) (w : Weights) (seqs : List (List (Vec ℝ))) (h0 : seqs ≠ []) (hq : ∀ seq ∈ seqs, 0 < ⌊r * seq.length⌋₊ ∧ ⌊r * seq.length⌋₊ < seq.length) :
    ∃ s' wout,
      evaluateNet T d factor (.number r) pinv s w seqs = some (s', { w with wout := wout },
        (seqs.map fun seq => free T d { w with wout := wout } factor (force T d { w with wout := wout } factor zero (seq.take ⌊r * seq.length⌋₊)) (seq.length - ⌊r * seq.length⌋₊)).flatten,
        (seqs.map fun seq => seq.drop ⌊r * seq.length⌋₊).flatten) ∧
      ∀ (a : Vec ℝ) (o : Nat),
        (seqs.map fun seq => predictionError T d { w with wout := wout } factor (seq.take ⌊r * seq.length⌋₊) (seq.drop ⌊r * seq.length⌋₊) o).sum ≤
          (seqs.map fun seq => predictionError T d { w with wout := a } factor (seq.take ⌊r * seq.length⌋₊) (seq.drop ⌊r * seq.length⌋₊) o).sum := by
  have hne : ∀ q ∈ seqs.map (halves r), q.1 ≠ [] ∧ q.2 ≠ [] := by
    intro q hm
    obtain ⟨seq, h1, rfl⟩ := List.mem_map.1 hm
    obtain ⟨a, b⟩ := hq seq h1
    constructor
    · intro h
      have := congrArg List.length h
      simp only [halves, List.length_take, List.length_nil] at this
      omega
    · intro h
      have := congrArg List.length h
      simp only [halves, List.length_drop, List.length_nil] at this
      omega
  obtain ⟨s1, a1, a2⟩ := collect_ok T d w factor (seqs.map (halves r)) hne s hs
  set wout := outputWeights d.hid ((seqs.map (halves r)).map (phi T d w factor)).flatten ((seqs.map (halves r)).map Prod.snd).flatten (pinv ((seqs.map (halves r)).map (phi T d w factor)).flatten) with hw
  obtain ⟨s2, b1, b2⟩ := outputs_ok T d { w with wout := wout } factor (seqs.map (halves r)) hne s1 a2
  refine ⟨s2, wout, ?_, fun a o => ?_⟩
  · obtain ⟨q0, qs0, he⟩ : ∃ q qs, seqs.map (halves r) = q :: qs := List.exists_cons_of_ne_nil (by simpa using h0)
    unfold evaluateNet
    rw [splitAll_eq, he]
    dsimp only
    rw [← he, a1]
    dsimp only
    rw [← hw, b1]
    dsimp only
    rw [List.map_map, List.map_map]
    refine congrArg some (Prod.ext rfl (Prod.ext rfl (Prod.ext ?_ rfl)))
    refine congrArg List.flatten (List.map_congr_left fun seq _ => ?_)
    show free _ _ _ _ _ (seq.drop ⌊r * seq.length⌋₊).length = _
    rw [List.length_drop]
    rfl
  · have e : ∀ x : Vec ℝ, (seqs.map fun seq => predictionError T d { w with wout := x } factor (seq.take ⌊r * seq.length⌋₊) (seq.drop ⌊r * seq.length⌋₊) o).sum =
        ((((seqs.map (halves r)).map (phi T d w factor)).flatten.zip ((seqs.map (halves r)).map Prod.snd).flatten).map fun p => (times d.hid x p.1 o - p.2 o) ^ 2).sum := by
      intro x
      rw [← errors_eq, List.map_map]
      rfl
    rw [e, e]
    refine outputWeights_best d.hid _ _ ?_ _ (hp _) a o
    have hl : ∀ qs : List (List (Vec ℝ) × List (Vec ℝ)), ((qs.map (phi T d w factor)).flatten).length = ((qs.map Prod.snd).flatten).length := by
      intro qs
      induction qs with
      | nil => rfl
      | cons q qs ih => simp only [List.map_cons, List.flatten_cons, List.length_append, ih]; simp [phi, forced_length]
    exact hl _

example : ∃ (r : ℝ) (seq : List (Vec ℝ)), 0 < ⌊r * seq.length⌋₊ ∧ ⌊r * seq.length⌋₊ < seq.length :=
  ⟨1 / 2, [fun _ => 0, fun _ => 0], by norm_num, by norm_num⟩

/-- **C120, negation (short sequences).** A data set with a sequence that is too short for a washout part, or a training part, cannot be used: the evaluation raises an exception. -/
theorem C120_negation_short (T : Trans ℝ) (d : Dims) (factor r : ℝ) (pinv : (rows : List (Vec ℝ)) → Matrix (Fin rows.length) (Fin d.hid) ℝ) (s : St) (w : Weights) (seqs : List (List (Vec ℝ)))
    (hq : ∃ seq ∈ seqs, ⌊r * seq.length⌋₊ = 0 ∨ seq.length ≤ ⌊r * seq.length⌋₊) : evaluateNet T d factor (.number r) pinv s w seqs = none := by
  have : collect T d w factor s (seqs.map (halves r)) = none := by
    refine collect_short T d w factor _ ?_ s
    obtain ⟨seq, h1, h2⟩ := hq
    refine ⟨_, List.mem_map.2 ⟨seq, h1, rfl⟩, h2.imp (fun h => ?_) fun h => ?_⟩
    · simp [halves, h]
    · exact List.drop_eq_nil_of_le h
  unfold evaluateNet
  rw [splitAll_eq]
  cases e : seqs.map (halves r) with
  | nil => rfl
  | cons q qs =>
    dsimp only
    rw [← e, this]

/-- **C120, negation (default ratio).** A trainer that is not given a `wtRatio` cannot train: its evaluation uses a default that is a pair of numbers, where one number is needed, and raises an exception for every network and every data set. -/
theorem C120_negation_default (T : Trans ℝ) (d : Dims) (factor : ℝ) (pinv : (rows : List (Vec ℝ)) → Matrix (Fin rows.length) (Fin d.hid) ℝ) (s : St) (w : Weights) (seqs : List (List (Vec ℝ))) :
    evaluateNet T d factor (trainerRatio none) pinv s w seqs = none := by
  cases seqs <;> rfl

/-- **C121, burst mutations.** In a sequence of epochs with the fitnesses `fs`, an epoch has a gain if its fitness is larger than all before; a burst mutation takes place in an epoch if at least `n` epochs have passed since the last gain or burst mutation, or since the beginning. -/
theorem C121_bursts {F : Type} [LinearOrder F] [OrderBot F] (n : Nat) (fs : List F) (k : Nat) (hk : k < fs.length) :
    let tr := trainEpochs (some n) (newSchedule : Schedule F) fs
    ∃ burst gain, tr[k]? = some (burst, gain) ∧ (gain = true ↔ ⊥ < fs[k] ∧ ∀ i (hi : i < fs.length), i < k → fs[i] < fs[k]) ∧
      (burst = true ↔ n ≤ k + 1 ∧ ∀ i < k, ∀ b g, tr[i]? = some (b, g) → b = true ∨ g = true → i + n ≤ k) := by
  intro tr
  obtain ⟨h1, h2, h3, h4, h5⟩ := after_inv (some n) fs k hk.le
  obtain ⟨t1, t2, t3, t4, t5⟩ := train_facts (some n) (after (some n) newSchedule (fs.take k)) fs[k]
  refine ⟨_, _, trainEpochs_getElem (some n) fs newSchedule k hk, t3.trans ?_, t4.trans ?_⟩
  · constructor
    · intro h
      exact ⟨lt_of_le_of_lt bot_le h, fun i hi hik => lt_of_le_of_lt (h2 i hi hik) h⟩
    · rintro ⟨a, b⟩
      rcases h3 with h3 | ⟨i, hi, hik, h3⟩
      · rw [h3]; exact a
      · rw [← h3]; exact b i hi hik
  · rw [h1]
    constructor
    · rintro ⟨m, hm, hle⟩
      obtain rfl : n = m := Option.some.inj hm
      refine ⟨by omega, fun i hik b g hbg hor => ?_⟩
      have := h4 i hik ⟨_, hbg, hor⟩
      omega
    · rintro ⟨a, b⟩
      refine ⟨n, rfl, ?_⟩
      rcases h5 with h5 | ⟨i, hik, ⟨p, hp, hor⟩, h5⟩
      · omega
      · have := b i hik p.1 p.2 hp hor
        omega

/-- **C121, no bursts by default.** -/
theorem C121_never {F : Type} [LinearOrder F] [OrderBot F] (fs : List F) : ∀ p ∈ trainEpochs none (newSchedule : Schedule F) fs, p.1 = false := by
  intro p hp
  obtain ⟨k, hk, rfl⟩ := List.mem_iff_getElem.1 hp
  have hl : ∀ (fs : List F) (s : Schedule F), (trainEpochs none s fs).length = fs.length := by
    intro fs
    induction fs with
    | nil => exact fun _ => rfl
    | cons f fs ih => intro s; simp [trainEpochs, ih]
  have h := trainEpochs_getElem none fs (newSchedule : Schedule F) k (by rw [← hl fs newSchedule]; exact hk)
  rw [List.getElem?_eq_getElem hk, Option.some.injEq] at h
  rw [h]
  have := (train_facts none (after none newSchedule (fs.take k)) (fs[k]'(by rw [← hl fs newSchedule]; exact hk))).2.2.2.1
  by_contra hc
  obtain ⟨m, hm, -⟩ := this.1 (by simpa using hc)
  exact absurd hm (by simp)

/-- Bursts after two epochs without a gain: epochs with fitness 1, 1, 1, 1, 1, 3, 2. -/
example : trainEpochs (some 2) (newSchedule : Schedule Nat) [1, 1, 1, 1, 1, 3, 2] =
    [(false, true), (false, false), (true, false), (false, false), (true, false), (false, true), (false, false)] := by decide

end Verif.Props

import Verif.Model.ValueBased
import Mathlib.Data.Finset.Max
import Mathlib.Data.Finset.Range
import Mathlib.Data.Rat.Floor
import Mathlib.Algebra.Order.Ring.Rat
import Mathlib.Tactic.Linarith
import Mathlib.Tactic.Ring
import Mathlib.Tactic.FieldSimp
import Mathlib.Tactic.NormNum
/-
C40 Q-learning and SARSA keep values within the discounted return bounds.
C67 Q(lambda) learning.
-/
namespace Verif.ValueBased
open Verif.DataSet (Err)

variable {K : Type} [Field K] [LinearOrder K] [IsStrictOrderedRing K]

/-- the samples refer to rows and columns of the table -/
def Fits (t : Table K) (x : Sample K) : Prop := x.state < t.rows ∧ x.action < t.cols

/-- all values of the table lie between `lo` and `hi` -/
def Within (t : Table K) (lo hi : K) : Prop := ∀ s a, s < t.rows → a < t.cols → lo ≤ t.q s a ∧ t.q s a ≤ hi

/-- `m` is the largest value of a state -/
def IsBest (t : Table K) (s : Nat) (m : K) : Prop := (∃ a, a < t.cols ∧ t.q s a = m) ∧ ∀ b, b < t.cols → t.q s b ≤ m

/-- the step of Q-learning and SARSA for a transition from `last`, when the next state is worth `v`: a step of size `alpha` from the
old value towards reward plus discounted `v` -/
def towards (alpha gamma : K) (t : Table K) (last : Sample K) (v : K) : Table K :=
  t.set last.state last.action ((1 - alpha) * t.q last.state last.action + alpha * (last.reward + gamma * v))

omit [Field K] [IsStrictOrderedRing K] in
theorem getMaxAction_total (t : Table K) (s pick : Nat) (hs : s < t.rows) (hc : 0 < t.cols) :
    ∃ a, getMaxAction t s pick = .ok a ∧ a < t.cols ∧ ∀ b, b < t.cols → t.q s b ≤ t.q s a := by
  obtain ⟨a0, h0, h1⟩ := Finset.exists_max_image (Finset.range t.cols) (t.q s) ⟨0, Finset.mem_range.2 hc⟩
  have hm : ∀ a, a ∈ bestActions t s ↔ a < t.cols ∧ ∀ b, b < t.cols → t.q s b ≤ t.q s a := by
    intro a; simp [bestActions]
  have hne : a0 ∈ bestActions t s := (hm a0).2 ⟨Finset.mem_range.1 h0, fun b hb => h1 b (Finset.mem_range.2 hb)⟩
  have hlen : 0 < (bestActions t s).length := List.length_pos_of_mem hne
  have hlt := Nat.mod_lt pick hlen
  have := (hm _).1 (List.getElem_mem hlt)
  refine ⟨(bestActions t s)[pick % (bestActions t s).length], ?_, this⟩
  simp [getMaxAction, hs, List.getElem?_eq_getElem hlt]

omit [IsStrictOrderedRing K] in
theorem qStep_ok (alpha gamma : K) (t : Table K) (last x : Sample K) (hl : Fits t last) (hx : Fits t x) :
    ∃ m, IsBest t x.state m ∧ qStep alpha gamma t last x = .ok (towards alpha gamma t last m) := by
  obtain ⟨a, h1, h2, h3⟩ := getMaxAction_total t x.state x.pick hx.1 (Nat.lt_of_le_of_lt (Nat.zero_le _) hx.2)
  refine ⟨t.q x.state a, ⟨⟨a, h2, rfl⟩, h3⟩, ?_⟩
  simp only [qStep, getValue, hl.1, hl.2, and_self, if_true, h1, hx.1, h2, updateValue, towards]
  congr 2
  ring

omit [IsStrictOrderedRing K] [LinearOrder K] in
theorem sarsaStep_ok (alpha gamma : K) (t : Table K) (last x : Sample K) (hl : Fits t last) (hx : Fits t x) :
    sarsaStep alpha gamma t last x = .ok (towards alpha gamma t last (t.q x.state x.action)) := by
  simp only [sarsaStep, getValue, hl.1, hl.2, and_self, if_true, hx.1, hx.2, updateValue, towards]
  congr 2
  ring

/-- a learning rule as used by `learn`: on fitting samples it goes towards a value of the next state -/
def GoodStep (alpha gamma : K) (step : Table K → Sample K → Sample K → Except Err (Table K)) : Prop :=
  ∀ t last x, Fits t last → Fits t x → ∃ a, a < t.cols ∧ step t last x = .ok (towards alpha gamma t last (t.q x.state a))

omit [IsStrictOrderedRing K] in
theorem goodStep_q (alpha gamma : K) : GoodStep alpha gamma (qStep alpha gamma) := by
  intro t last x hl hx
  obtain ⟨m, ⟨⟨a, ha, rfl⟩, _⟩, h⟩ := qStep_ok alpha gamma t last x hl hx
  exact ⟨a, ha, h⟩

omit [IsStrictOrderedRing K] [LinearOrder K] in
theorem goodStep_sarsa (alpha gamma : K) : GoodStep alpha gamma (sarsaStep alpha gamma) := by
  intro t last x hl hx
  exact ⟨x.action, hx.2, sarsaStep_ok alpha gamma t last x hl hx⟩

omit [LinearOrder K] [IsStrictOrderedRing K] in
theorem towards_shape (alpha gamma : K) (t : Table K) (last : Sample K) (v : K) :
    (towards alpha gamma t last v).rows = t.rows ∧ (towards alpha gamma t last v).cols = t.cols := ⟨rfl, rfl⟩

theorem towards_within (alpha gamma : K) (ha0 : 0 ≤ alpha) (ha1 : alpha ≤ 1) (hg0 : 0 ≤ gamma) (hg1 : gamma < 1) (rmin rmax : K)
    (t : Table K) (hw : Within t (rmin / (1 - gamma)) (rmax / (1 - gamma))) (last : Sample K) (hl : Fits t last)
    (hr : rmin ≤ last.reward ∧ last.reward ≤ rmax) (v : K) (hv : rmin / (1 - gamma) ≤ v ∧ v ≤ rmax / (1 - gamma)) :
    Within (towards alpha gamma t last v) (rmin / (1 - gamma)) (rmax / (1 - gamma)) := by
  intro s a hs haa
  simp only [towards, Table.set]
  split
  · have h1 : (0 : K) < 1 - gamma := by linarith
    have hold := hw last.state last.action hl.1 hl.2
    set lo := rmin / (1 - gamma) with hlo
    set hi := rmax / (1 - gamma) with hhi
    have e1 : rmin = lo * (1 - gamma) := by rw [hlo]; field_simp
    have e2 : rmax = hi * (1 - gamma) := by rw [hhi]; field_simp
    have t1 : lo ≤ last.reward + gamma * v := by
      have := mul_le_mul_of_nonneg_left hv.1 hg0
      have := hr.1
      rw [e1] at this
      linarith
    have t2 : last.reward + gamma * v ≤ hi := by
      have := mul_le_mul_of_nonneg_left hv.2 hg0
      have := hr.2
      rw [e2] at this
      linarith
    have ha1' : 0 ≤ 1 - alpha := by linarith
    constructor
    · have := mul_le_mul_of_nonneg_left hold.1 ha1'
      have := mul_le_mul_of_nonneg_left t1 ha0
      linarith
    · have := mul_le_mul_of_nonneg_left hold.2 ha1'
      have := mul_le_mul_of_nonneg_left t2 ha0
      linarith
  · exact hw s a hs haa

omit [IsStrictOrderedRing K] [LinearOrder K] in
/-- the (state, action) pairs updated for a sequence: all but the last -/
theorem learnSeq_frame (alpha gamma : K) (step : Table K → Sample K → Sample K → Except Err (Table K)) (hg : GoodStep alpha gamma step)
    (seq : List (Sample K)) (last : Option (Sample K)) (t : Table K) (hf : ∀ x ∈ seq, Fits t x) (hl : ∀ x, last = some x → Fits t x)
    (P : Table K → Prop) (hP : P t)
    (hstep : ∀ t' y v, t'.rows = t.rows → t'.cols = t.cols → P t' → y ∈ (last.toList ++ seq).dropLast →
      (∃ x a, x ∈ seq ∧ a < t.cols ∧ v = t'.q x.state a) → P (towards alpha gamma t' y v)) :
    ∃ t', learnSeq step last seq t = .ok t' ∧ t'.rows = t.rows ∧ t'.cols = t.cols ∧ P t' := by
  induction seq generalizing last t with
  | nil => exact ⟨t, by cases last <;> rfl, rfl, rfl, hP⟩
  | cons x xs ih =>
    cases last with
    | none =>
      rw [learnSeq]
      refine ih (some x) t (fun y hy => hf y (List.mem_cons_of_mem _ hy)) (fun y hy => by
        simp only [Option.some.injEq] at hy; subst hy; exact hf x List.mem_cons_self) hP ?_
      intro t' y v h1 h2 h3 h4 h5
      refine hstep t' y v h1 h2 h3 (by simpa using h4) ?_
      obtain ⟨x', a, hx', h6⟩ := h5
      exact ⟨x', a, List.mem_cons_of_mem _ hx', h6⟩
    | some l =>
      obtain ⟨a, ha, hs⟩ := hg t l x (hl l rfl) (hf x List.mem_cons_self)
      rw [learnSeq, hs]
      simp only
      have hP' : P (towards alpha gamma t l (t.q x.state a)) :=
        hstep t l _ rfl rfl hP (by simp) ⟨x, a, List.mem_cons_self, ha, rfl⟩
      obtain ⟨t', h1, h2, h3, h4⟩ := ih (some x) (towards alpha gamma t l (t.q x.state a)) (fun y hy => hf y (List.mem_cons_of_mem _ hy))
        (fun y hy => by simp only [Option.some.injEq] at hy; subst hy; exact hf x List.mem_cons_self) hP' (by
          intro t' y v h1 h2 h3 h4 h5
          refine hstep t' y v h1 h2 h3 ?_ ?_
          · simp only [Option.toList_some, List.singleton_append, List.dropLast_cons_cons] at h4 ⊢
            exact List.mem_cons_of_mem _ h4
          · obtain ⟨x', a', hx', h6⟩ := h5
            exact ⟨x', a', List.mem_cons_of_mem _ hx', h6⟩)
      exact ⟨t', h1, h2, h3, h4⟩

omit [IsStrictOrderedRing K] [LinearOrder K] in
theorem learn_frame (alpha gamma : K) (step : Table K → Sample K → Sample K → Except Err (Table K)) (hg : GoodStep alpha gamma step)
    (seqs : List (List (Sample K))) (t : Table K) (hf : ∀ seq ∈ seqs, ∀ x ∈ seq, Fits t x) (P : Table K → Prop) (hP : P t)
    (hstep : ∀ t' seq y v, t'.rows = t.rows → t'.cols = t.cols → P t' → seq ∈ seqs → y ∈ seq.dropLast →
      (∃ x a, x ∈ seq ∧ a < t.cols ∧ v = t'.q x.state a) → P (towards alpha gamma t' y v)) :
    ∃ t', learn step seqs t = .ok t' ∧ t'.rows = t.rows ∧ t'.cols = t.cols ∧ P t' := by
  induction seqs generalizing t with
  | nil => exact ⟨t, rfl, rfl, rfl, hP⟩
  | cons seq seqs ih =>
    obtain ⟨t1, h1, h2, h3, h4⟩ := learnSeq_frame alpha gamma step hg seq none t (hf seq List.mem_cons_self) (by simp) P hP
      (fun t' y v e1 e2 e3 e4 e5 => hstep t' seq y v e1 e2 e3 List.mem_cons_self (by simpa using e4) e5)
    obtain ⟨t2, g1, g2, g3, g4⟩ := ih t1 (fun s hs x hx => by
        have := hf s (List.mem_cons_of_mem _ hs) x hx
        exact ⟨by rw [h2]; exact this.1, by rw [h3]; exact this.2⟩) h4
      (fun t' s y v e1 e2 e3 e4 e5 e6 => hstep t' s y v (e1.trans h2) (e2.trans h3) e3 (List.mem_cons_of_mem _ e4) e5 (by
        obtain ⟨x, a, k1, k2, k3⟩ := e6
        exact ⟨x, a, k1, by rw [← h3]; exact k2, k3⟩))
    refine ⟨t2, ?_, g2.trans h2, g3.trans h3, g4⟩
    simp only [learn, h1]
    exact g1

/-- repeated learn calls, each on its own data -/
def learnCalls (step : Table K → Sample K → Sample K → Except Err (Table K)) : List (List (List (Sample K))) → Table K → Except Err (Table K)
  | [], t => .ok t
  | ds :: rest, t => match learn step ds t with
    | .error e => .error e
    | .ok t' => learnCalls step rest t'

/-! the specification of Q-learning on a sequence -/

/-- the table `t'` results from `t` by one Q-learning step for each transition of the sequence, in order -/
inductive QRun (alpha gamma : K) : Table K → List (Sample K) → Table K → Prop
  | nil (t) : QRun alpha gamma t [] t
  | single (t x) : QRun alpha gamma t [x] t
  | step {t x y l m t'} : IsBest t y.state m → QRun alpha gamma (towards alpha gamma t x m) (y :: l) t' → QRun alpha gamma t (x :: y :: l) t'

/-- the same for SARSA -/
inductive SarsaRun (alpha gamma : K) : Table K → List (Sample K) → Table K → Prop
  | nil (t) : SarsaRun alpha gamma t [] t
  | single (t x) : SarsaRun alpha gamma t [x] t
  | step {t x y l t'} : SarsaRun alpha gamma (towards alpha gamma t x (t.q y.state y.action)) (y :: l) t' → SarsaRun alpha gamma t (x :: y :: l) t'

omit [IsStrictOrderedRing K] in
theorem qRun_aux (alpha gamma : K) (xs : List (Sample K)) (x : Sample K) (t : Table K) (hf : ∀ y ∈ x :: xs, Fits t y) :
    ∃ t', learnSeq (qStep alpha gamma) (some x) xs t = .ok t' ∧ QRun alpha gamma t (x :: xs) t' := by
  induction xs generalizing x t with
  | nil => exact ⟨t, rfl, .single t x⟩
  | cons y ys ih =>
    obtain ⟨m, hm, hs⟩ := qStep_ok alpha gamma t x y (hf x List.mem_cons_self) (hf y (by simp))
    obtain ⟨t', h1, h2⟩ := ih y (towards alpha gamma t x m) (fun z hz => hf z (List.mem_cons_of_mem _ hz))
    exact ⟨t', by rw [learnSeq, hs]; exact h1, .step hm h2⟩

omit [IsStrictOrderedRing K] [LinearOrder K] in
theorem sarsaRun_aux (alpha gamma : K) (xs : List (Sample K)) (x : Sample K) (t : Table K) (hf : ∀ y ∈ x :: xs, Fits t y) :
    ∃ t', learnSeq (sarsaStep alpha gamma) (some x) xs t = .ok t' ∧ SarsaRun alpha gamma t (x :: xs) t' := by
  induction xs generalizing x t with
  | nil => exact ⟨t, rfl, .single t x⟩
  | cons y ys ih =>
    have hs := sarsaStep_ok alpha gamma t x y (hf x List.mem_cons_self) (hf y (by simp))
    obtain ⟨t', h1, h2⟩ := ih y (towards alpha gamma t x (t.q y.state y.action)) (fun z hz => hf z (List.mem_cons_of_mem _ hz))
    exact ⟨t', by rw [learnSeq, hs]; exact h1, .step h2⟩

end Verif.ValueBased

namespace Verif.Props
open Verif.DataSet (Err)
open Verif.ValueBased

variable {K : Type} [Field K] [LinearOrder K] [IsStrictOrderedRing K]

/-- **C40.** Rewards in [rmin, rmax], 0 ≤ γ < 1, 0 ≤ α ≤ 1, values initially in [rmin/(1-γ), rmax/(1-γ)]: after any number of `learn` calls
on any data sets, all values are still in that interval; no exception is raised. For Q-learning and SARSA, whatever ties are broken. -/
theorem C40_bounds (alpha gamma : K) (ha0 : 0 ≤ alpha) (ha1 : alpha ≤ 1) (hg0 : 0 ≤ gamma) (hg1 : gamma < 1) (rmin rmax : K)
    (step : Table K → Sample K → Sample K → Except Err (Table K)) (hstep : step = qStep alpha gamma ∨ step = sarsaStep alpha gamma)
    (calls : List (List (List (Sample K)))) (t : Table K) (hw : Within t (rmin / (1 - gamma)) (rmax / (1 - gamma)))
    (hf : ∀ ds ∈ calls, ∀ seq ∈ ds, ∀ x ∈ seq, Fits t x ∧ rmin ≤ x.reward ∧ x.reward ≤ rmax) :
    ∃ t', learnCalls step calls t = .ok t' ∧ t'.rows = t.rows ∧ t'.cols = t.cols ∧ Within t' (rmin / (1 - gamma)) (rmax / (1 - gamma)) := by
  have hg : GoodStep alpha gamma step := by
    rcases hstep with rfl | rfl
    · exact goodStep_q alpha gamma
    · exact goodStep_sarsa alpha gamma
  induction calls generalizing t with
  | nil => exact ⟨t, rfl, rfl, rfl, hw⟩
  | cons ds rest ih =>
    have hds := hf ds List.mem_cons_self
    obtain ⟨t1, h1, h2, h3, h4⟩ := learn_frame alpha gamma step hg ds t (fun seq hs x hx => (hds seq hs x hx).1)
      (fun t' => Within t' (rmin / (1 - gamma)) (rmax / (1 - gamma))) hw (by
        intro t' seq y v e1 e2 hP hseq hy hv
        obtain ⟨x, a, hx, ha, rfl⟩ := hv
        have hy' := hds seq hseq y (List.dropLast_subset _ hy)
        have hx' := hds seq hseq x hx
        exact towards_within alpha gamma ha0 ha1 hg0 hg1 rmin rmax t' hP y
          ⟨by rw [e1]; exact hy'.1.1, by rw [e2]; exact hy'.1.2⟩ hy'.2 _ (hP x.state a (by rw [e1]; exact hx'.1.1) (by rw [e2]; exact ha)))
    obtain ⟨t2, g1, g2, g3, g4⟩ := ih t1 h4 (fun d hd s hs x hx => by
      have := hf d (List.mem_cons_of_mem _ hd) s hs x hx
      exact ⟨⟨by rw [h2]; exact this.1.1, by rw [h3]; exact this.1.2⟩, this.2⟩)
    exact ⟨t2, by simp only [learnCalls, h1]; exact g1, g2.trans h2, g3.trans h3, g4⟩

omit [IsStrictOrderedRing K] in
/-- **C40, locality.** `learn` changes only values of (state, action) pairs that occur in some sequence before its last sample. -/
theorem C40_local (alpha gamma : K) (step : Table K → Sample K → Sample K → Except Err (Table K))
    (hstep : step = qStep alpha gamma ∨ step = sarsaStep alpha gamma) (seqs : List (List (Sample K))) (t : Table K)
    (hf : ∀ seq ∈ seqs, ∀ x ∈ seq, Fits t x) :
    ∃ t', learn step seqs t = .ok t' ∧
      ∀ s a, (∀ seq ∈ seqs, ∀ x ∈ seq.dropLast, ¬ (x.state = s ∧ x.action = a)) → t'.q s a = t.q s a := by
  have hg : GoodStep alpha gamma step := by
    rcases hstep with rfl | rfl
    · exact goodStep_q alpha gamma
    · exact goodStep_sarsa alpha gamma
  obtain ⟨t', h1, _, _, h4⟩ := learn_frame alpha gamma step hg seqs t hf
    (fun t' => ∀ s a, (∀ seq ∈ seqs, ∀ x ∈ seq.dropLast, ¬ (x.state = s ∧ x.action = a)) → t'.q s a = t.q s a) (fun _ _ _ => rfl) (by
      intro t' seq y v _ _ hP hseq hy _ s a hno
      simp only [towards, Table.set]
      rw [if_neg (fun e => hno seq hseq y hy ⟨e.1.symm, e.2.symm⟩)]
      exact hP s a hno)
  exact ⟨t', h1, h4⟩

omit [IsStrictOrderedRing K] in
/-- **C40, the updates.** On each sequence, for every transition in order, Q goes from the old value a step of size α towards reward plus
γ times the best value of the next state, SARSA towards reward plus γ times the value of the next state and action. -/
theorem C40_updates (alpha gamma : K) (seq : List (Sample K)) (t : Table K) (hf : ∀ x ∈ seq, Fits t x) :
    (∃ t', learnSeq (qStep alpha gamma) none seq t = .ok t' ∧ QRun alpha gamma t seq t') ∧
    (∃ t', learnSeq (sarsaStep alpha gamma) none seq t = .ok t' ∧ SarsaRun alpha gamma t seq t') := by
  cases seq with
  | nil => exact ⟨⟨t, rfl, .nil t⟩, ⟨t, rfl, .nil t⟩⟩
  | cons x xs =>
    obtain ⟨t1, h1, h2⟩ := qRun_aux alpha gamma xs x t hf
    obtain ⟨t2, g1, g2⟩ := sarsaRun_aux alpha gamma xs x t hf
    exact ⟨⟨t1, h1, h2⟩, ⟨t2, g1, g2⟩⟩

omit [IsStrictOrderedRing K] in
/-- **C40, fixed points.** If for every transition of the data the value already equals reward plus γ times the best value of the next
state, Q-learning changes nothing. -/
theorem C40_fixed (alpha gamma : K) (seqs : List (List (Sample K))) (t : Table K) (hf : ∀ seq ∈ seqs, ∀ x ∈ seq, Fits t x)
    (hb : ∀ seq ∈ seqs, ∀ (i : Nat) (x y : Sample K), seq[i]? = some x → seq[i + 1]? = some y →
      ∃ m, IsBest t y.state m ∧ t.q x.state x.action = x.reward + gamma * m) :
    learn (qStep alpha gamma) seqs t = .ok t := by
  have best_unique : ∀ s m m', IsBest t s m → IsBest t s m' → m = m' := by
    rintro s m m' ⟨⟨a, ha, rfl⟩, h1⟩ ⟨⟨b, hb, rfl⟩, h2⟩
    exact le_antisymm (h2 a ha) (h1 b hb)
  have key : ∀ (xs : List (Sample K)) (x : Sample K), (∀ y ∈ x :: xs, Fits t y) →
      (∀ (i : Nat) (u v : Sample K), (x :: xs)[i]? = some u → (x :: xs)[i + 1]? = some v → ∃ m, IsBest t v.state m ∧ t.q u.state u.action = u.reward + gamma * m) →
      learnSeq (qStep alpha gamma) (some x) xs t = .ok t := by
    intro xs
    induction xs with
    | nil => intro x _ _; rfl
    | cons y ys ih =>
      intro x hfx hbx
      obtain ⟨m, hm, hs⟩ := qStep_ok alpha gamma t x y (hfx x List.mem_cons_self) (hfx y (by simp))
      obtain ⟨m', hm', he⟩ := hbx 0 x y rfl rfl
      rw [best_unique _ _ _ hm' hm] at he
      have hfix : towards alpha gamma t x m = t := by
        have : (1 - alpha) * t.q x.state x.action + alpha * (x.reward + gamma * m) = t.q x.state x.action := by rw [← he]; ring
        obtain ⟨r, c, q⟩ := t
        simp only [towards, Table.set] at this ⊢
        congr 1
        funext s a
        by_cases hsa : s = x.state ∧ a = x.action
        · rw [if_pos hsa, hsa.1, hsa.2, this]
        · rw [if_neg hsa]
      rw [learnSeq, hs]
      simp only [hfix]
      exact ih y (fun z hz => hfx z (List.mem_cons_of_mem _ hz)) (fun i u v h1 h2 => hbx (i + 1) u v (by simpa using h1) (by simpa using h2))
  induction seqs with
  | nil => rfl
  | cons seq seqs ih =>
    have h1 : learnSeq (qStep alpha gamma) none seq t = .ok t := by
      cases seq with
      | nil => rfl
      | cons x xs => exact key xs x (hf _ List.mem_cons_self) (fun i u v h1 h2 => hb _ List.mem_cons_self i u v h1 h2)
    simp only [learn, h1]
    exact ih (fun s hs => hf s (List.mem_cons_of_mem _ hs)) (fun s hs => hb s (List.mem_cons_of_mem _ hs))

/-- a table of two states and two actions, and a sequence of three samples -/
def smallTable : Table ℚ := { rows := 2, cols := 2, q := fun s a => if s = 1 ∧ a = 0 then 1 else 0 }
def smallSeq : List (Sample ℚ) := [⟨0, 1, 1, 0⟩, ⟨1, 0, 0, 0⟩, ⟨0, 0, 1, 3⟩]

example : (∀ x ∈ smallSeq, Fits smallTable x ∧ (0 : ℚ) ≤ x.reward ∧ x.reward ≤ 1) ∧ Within smallTable (0 / (1 - 1 / 2)) (1 / (1 - 1 / 2)) := by
  constructor
  · intro x hx
    simp only [smallSeq, List.mem_cons, List.not_mem_nil, or_false] at hx
    rcases hx with rfl | rfl | rfl <;> refine ⟨⟨by decide, by decide⟩, by norm_num, by norm_num⟩
  · intro s a _ _
    simp only [smallTable]
    split <;> norm_num

omit [IsStrictOrderedRing K] in
/-- **C40, online mode: violated.** With batchMode = False `learn` never changes anything, because the single sample it looks at is
treated as the beginning of a sequence. -/
theorem C40_negation_online (step : Table K → Sample K → Sample K → Except Err (Table K)) (x : Sample K) (t : Table K) :
    learnOnline step x t = .ok t := rfl

/-- **C40, last reward.** The reward of the last sample of a sequence (for instance the one given for reaching the goal) has no influence. -/
theorem C40_last_reward_ignored (alpha gamma r : K) (seq : List (Sample K)) (x : Sample K) (t : Table K)
    (step : Table K → Sample K → Sample K → Except Err (Table K)) (hstep : step = qStep alpha gamma ∨ step = sarsaStep alpha gamma) :
    learnSeq step none (seq ++ [{ x with reward := r }]) t = learnSeq step none (seq ++ [x]) t := by
  have hs : ∀ t last, step t last { x with reward := r } = step t last x := by
    intro t last
    rcases hstep with rfl | rfl <;> rfl
  have key : ∀ (l : List (Sample K)) (last : Option (Sample K)) (t : Table K),
      learnSeq step last (l ++ [{ x with reward := r }]) t = learnSeq step last (l ++ [x]) t := by
    intro l
    induction l with
    | nil =>
      intro last t
      cases last with
      | none => rfl
      | some y => simp only [List.nil_append, learnSeq, hs]
    | cons z l ih =>
      intro last t
      cases last with
      | none => simp only [List.cons_append, learnSeq, ih]
      | some y => simp only [List.cons_append, learnSeq, ih]
  exact key seq none t

/-! ### C67 Q(lambda) -/

/-- **C67.** With integer rewards, Q(λ) keeps the values within the same bounds, for 0 ≤ λ ≤ 1 and any cut-off. -/
theorem C67_bounds [FloorRing K] (alpha gamma lambda bound : K) (ha0 : 0 ≤ alpha) (ha1 : alpha ≤ 1) (hg0 : 0 ≤ gamma) (hg1 : gamma < 1)
    (hl0 : 0 ≤ lambda) (hl1 : lambda ≤ 1) (rmin rmax : K) (seqs : List (List (Sample K))) (t : Table K)
    (hw : Within t (rmin / (1 - gamma)) (rmax / (1 - gamma)))
    (hf : ∀ seq ∈ seqs, ∀ x ∈ seq, Fits t x ∧ rmin ≤ x.reward ∧ x.reward ≤ rmax ∧ ∃ k : Int, x.reward = k) :
    ∃ t', qlambdaLearn alpha gamma lambda bound seqs t = .ok t' ∧ Within t' (rmin / (1 - gamma)) (rmax / (1 - gamma)) := by
  have key : ∀ (l : List (Sample K)) (j : Nat) (t : Table K), Within t (rmin / (1 - gamma)) (rmax / (1 - gamma)) →
      (∀ x ∈ l, Fits t x ∧ rmin ≤ x.reward ∧ x.reward ≤ rmax ∧ ∃ k : Int, x.reward = k) →
      ∃ t', qlambdaLoop alpha gamma lambda bound j l t = .ok t' ∧ Within t' (rmin / (1 - gamma)) (rmax / (1 - gamma)) := by
    intro l
    induction l with
    | nil => intro j t hw _; exact ⟨t, rfl, hw⟩
    | cons x l ih =>
      intro j t hw hl
      cases l with
      | nil => exact ⟨t, rfl, hw⟩
      | cons last rest =>
        rw [qlambdaLoop]
        split
        · exact ⟨t, rfl, hw⟩
        · obtain ⟨hx, _⟩ := hl x List.mem_cons_self
          obtain ⟨hla, hr1, hr2, k, hk⟩ := hl last (by simp)
          obtain ⟨a, h1, h2, h3⟩ := getMaxAction_total t x.state x.pick hx.1 (Nat.lt_of_le_of_lt (Nat.zero_le _) hx.2)
          have hlam0 : 0 ≤ alpha * lambda ^ j := mul_nonneg ha0 (pow_nonneg hl0 j)
          have hlam1 : alpha * lambda ^ j ≤ 1 := by
            calc alpha * lambda ^ j ≤ 1 * 1 := mul_le_mul ha1 (pow_le_one₀ hl0 hl1) (pow_nonneg hl0 j) (by norm_num)
              _ = 1 := by norm_num
          have hint : ((pyInt last.reward : Int) : K) = last.reward := by
            rw [hk]; unfold pyInt; split <;> simp
          simp only [getValue, hla.1, hla.2, and_self, if_true, h1, hx.1, h2, updateValue, hint]
          have e : t.set last.state last.action (t.q last.state last.action + alpha * lambda ^ j * (last.reward + gamma * t.q x.state a - t.q last.state last.action)) =
              towards (alpha * lambda ^ j) gamma t last (t.q x.state a) := by
            simp only [towards]; congr 1; ring
          rw [e]
          exact ih (j + 1) _ (towards_within _ gamma hlam0 hlam1 hg0 hg1 rmin rmax t hw last hla ⟨hr1, hr2⟩ _ (hw x.state a hx.1 h2))
            (fun y hy => hl y (List.mem_cons_of_mem _ hy))
  refine key _ 0 t hw (fun x hx => ?_)
  rw [List.mem_reverse, List.mem_flatten] at hx
  obtain ⟨seq, hs, hx⟩ := hx
  exact hf seq hs x hx

/-- **C67: violated for fractional rewards**, which are truncated: from an empty table and rewards of 1/2 nothing is learnt. -/
theorem C67_negation_fraction :
    (qlambdaLearn (1 / 2 : ℚ) (9 / 10) (9 / 10) (1 / 10000) [[⟨0, 0, 1 / 2, 0⟩, ⟨1, 0, 1 / 2, 0⟩]] ⟨2, 1, fun _ _ => 0⟩).toOption.map (fun t => t.q 0 0) = some 0 ∧
    (learn (qStep (1 / 2 : ℚ) (9 / 10)) [[⟨0, 0, 1 / 2, 0⟩, ⟨1, 0, 1 / 2, 0⟩]] ⟨2, 1, fun _ _ => 0⟩).toOption.map (fun t => t.q 0 0) = some (1 / 4) := by
  exact ⟨by decide +kernel, by decide +kernel⟩

/-- **C67: violated at the boundaries of sequences.** Two sequences of one sample each contain no transition, but Q(λ) learns from the last
sample of the first to the first of the second. -/
theorem C67_negation_boundary :
    (qlambdaLearn (1 / 2 : ℚ) (9 / 10) (9 / 10) (1 / 10000) [[⟨0, 0, 1, 0⟩], [⟨1, 0, 1, 0⟩]] ⟨2, 1, fun _ _ => 0⟩).toOption.map (fun t => t.q 0 0) = some (1 / 2) ∧
    (learn (qStep (1 / 2 : ℚ) (9 / 10)) [[⟨0, 0, 1, 0⟩], [⟨1, 0, 1, 0⟩]] ⟨2, 1, fun _ _ => 0⟩).toOption.map (fun t => t.q 0 0) = some 0 := by
  exact ⟨by decide +kernel, by decide +kernel⟩

end Verif.Props

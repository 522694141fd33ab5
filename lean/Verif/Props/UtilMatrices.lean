import Verif.Model.Utilities
import Mathlib.LinearAlgebra.Matrix.NonsingularInverse
import Mathlib.Tactic.Linarith
import Mathlib.Tactic.LinearCombination
import Mathlib.Tactic.Ring
import Mathlib.Tactic.NormNum
/- Properties of helpers for numbers and matrices (C141). -/
namespace Verif.Util
open Verif.DataSet (Err)
open Matrix

namespace Spec
/-- the number with the given binary digits, the highest first -/
def binary (bits : List Bool) : Nat := bits.foldl (fun v b => 2 * v + b.toNat) 0

/-- matrices beside each other -/
def rowAt : List Mat → Nat → Nat → ℝ
  | [], _, _ => 0
  | m :: row, a, b => if b < m.cols then m.at_ a b else rowAt row a (b - m.cols)

/-- the height of a row of matrices: that of the first one -/
def height : List Mat → Nat
  | [] => 0
  | m :: _ => m.rows

/-- rows of matrices below each other -/
def blockAt : List (List Mat) → Nat → Nat → ℝ
  | [], _, _ => 0
  | row :: rows, a, b => if a < height row then rowAt row a b else blockAt rows (a - height row) b
end Spec
open Spec

/-! ### binArr2int -/

theorem horner (l : List Nat) (k : Nat) : ((l.zipIdx k).map fun (p : Nat × Nat) => p.1 * 256 ^ p.2).sum = 256 ^ k * l.foldr (fun x v => x + 256 * v) 0 := by
  induction l generalizing k with
  | nil => simp
  | cons x l ih => rw [List.zipIdx_cons, List.map_cons, List.sum_cons, ih, List.foldr_cons]; ring

theorem packbits_cons (bits : List Bool) (h : bits ≠ []) : packbits bits = packByte (bits.take 8) :: packbits (bits.drop 8) := by
  have hl : 0 < bits.length := List.length_pos_iff.mpr h
  unfold packbits
  have : (bits.length + 7) / 8 = ((bits.drop 8).length + 7) / 8 + 1 := by rw [List.length_drop]; omega
  rw [this, List.range_succ_eq_map, List.map_cons, List.map_map]
  refine congrArg₂ _ (by simp) (List.map_congr_left fun k _ => ?_)
  simp only [Function.comp_def, List.drop_drop]
  rw [show 8 * k.succ = 8 + 8 * k by omega]

theorem pack_fold : ∀ (n : Nat) (bits : List Bool), bits.length ≤ n → ∀ v : Nat,
    (packbits bits).foldl (fun v x => x + 256 * v) v = (bits ++ List.replicate ((8 - bits.length % 8) % 8) false).foldl (fun v b => 2 * v + b.toNat) v := by
  intro n
  induction n with
  | zero => intro bits h v; simp only [Nat.le_zero, List.length_eq_zero_iff] at h; subst h; simp [packbits]
  | succ n ih =>
    intro bits h v
    match bits, h with
    | [], _ => simp [packbits]
    | b0 :: b1 :: b2 :: b3 :: b4 :: b5 :: b6 :: b7 :: rest, h =>
      rw [packbits_cons _ (by simp), List.foldl_cons]
      have hd : (b0 :: b1 :: b2 :: b3 :: b4 :: b5 :: b6 :: b7 :: rest).drop 8 = rest := rfl
      have hp : (8 - (b0 :: b1 :: b2 :: b3 :: b4 :: b5 :: b6 :: b7 :: rest).length % 8) % 8 = (8 - rest.length % 8) % 8 := by simp only [List.length_cons]; omega
      rw [hd, ih rest (by simp only [List.length_cons] at h; omega), hp]
      simp only [List.cons_append, List.foldl_cons]
      congr 1
      simp [packByte, List.range, List.range.loop]
      ring
    | [b0], _ => rw [packbits_cons _ (by simp)]; simp [packByte, packbits, List.range, List.range.loop, List.replicate]; ring
    | [b0, b1], _ => rw [packbits_cons _ (by simp)]; simp [packByte, packbits, List.range, List.range.loop, List.replicate]; ring
    | [b0, b1, b2], _ => rw [packbits_cons _ (by simp)]; simp [packByte, packbits, List.range, List.range.loop, List.replicate]; ring
    | [b0, b1, b2, b3], _ => rw [packbits_cons _ (by simp)]; simp [packByte, packbits, List.range, List.range.loop, List.replicate]; ring
    | [b0, b1, b2, b3, b4], _ => rw [packbits_cons _ (by simp)]; simp [packByte, packbits, List.range, List.range.loop, List.replicate]; ring
    | [b0, b1, b2, b3, b4, b5], _ => rw [packbits_cons _ (by simp)]; simp [packByte, packbits, List.range, List.range.loop, List.replicate]; ring
    | [b0, b1, b2, b3, b4, b5, b6], _ => rw [packbits_cons _ (by simp)]; simp [packByte, packbits, List.range, List.range.loop, List.replicate]; ring

theorem binArr2int_eq (bits : List Bool) : binArr2int bits = binary (bits ++ List.replicate ((8 - bits.length % 8) % 8) false) := by
  unfold binArr2int binary
  have := horner (packbits bits).reverse 0
  rw [pow_zero, one_mul, List.foldr_reverse] at this
  rw [← pack_fold _ bits le_rfl, ← this]

theorem binary_pad (bits : List Bool) (k : Nat) : binary (bits ++ List.replicate k false) = binary bits * 2 ^ k := by
  unfold binary
  rw [List.foldl_append]
  generalize bits.foldl (fun v b => 2 * v + b.toNat) 0 = v
  induction k generalizing v with
  | zero => simp
  | succ k ih => rw [List.replicate_succ, List.foldl_cons, ih, pow_succ]; simp; ring

/-! ### sparse_orth -/

variable {d : Nat}

theorem givens_row (i : Nat) (t : ℝ) (f : Bool) (hi : i < d) (hj : i + 1 < d) (a : Fin d) : (givens i t f : Matrix (Fin d) (Fin d) ℝ) a =
    if a.val = i then Real.cos t • Pi.single ⟨i, hi⟩ 1 + (if f then -Real.sin t else Real.sin t) • Pi.single ⟨i + 1, hj⟩ 1
    else if a.val = i + 1 then Real.sin t • Pi.single ⟨i, hi⟩ 1 + (if f then Real.cos t else -Real.cos t) • Pi.single ⟨i + 1, hj⟩ 1
    else Pi.single a 1 := by
  funext b
  unfold givens
  by_cases h1 : a.val = i
  · have h1' : a.val ≠ i + 1 := by omega
    by_cases h2 : b.val = i
    · have e1 : b = ⟨i, hi⟩ := Fin.ext h2
      subst e1
      cases f <;> simp [h1, Pi.single_apply]
    · by_cases h3 : b.val = i + 1
      · have e1 : b = ⟨i + 1, hj⟩ := Fin.ext h3
        subst e1
        cases f <;> simp [h1, Pi.single_apply]
      · have e1 : b ≠ ⟨i, hi⟩ := fun h => h2 (congrArg Fin.val h)
        have e2 : b ≠ ⟨i + 1, hj⟩ := fun h => h3 (congrArg Fin.val h)
        have e3 : a ≠ b := fun h => h2 (by rw [← h]; exact h1)
        cases f <;> simp [h1, h2, h3, e1, e2, e3]
  · by_cases h1' : a.val = i + 1
    · by_cases h2 : b.val = i
      · have e1 : b = ⟨i, hi⟩ := Fin.ext h2
        subst e1
        cases f <;> simp [h1, h1', Pi.single_apply]
      · by_cases h3 : b.val = i + 1
        · have e1 : b = ⟨i + 1, hj⟩ := Fin.ext h3
          subst e1
          cases f <;> simp [h1, h1', Pi.single_apply]
        · have e1 : b ≠ ⟨i, hi⟩ := fun h => h2 (congrArg Fin.val h)
          have e2 : b ≠ ⟨i + 1, hj⟩ := fun h => h3 (congrArg Fin.val h)
          have e3 : a ≠ b := fun h => h3 (by rw [← h]; exact h1')
          cases f <;> simp [h1, h1', h2, h3, e1, e2, e3]
    · cases f <;> simp [h1, h1', Pi.single_apply, eq_comm]

theorem givens_orth (i : Nat) (t : ℝ) (f : Bool) (hj : i + 1 < d) : (givens i t f : Matrix (Fin d) (Fin d) ℝ) * (givens i t f)ᵀ = 1 := by
  have hi : i < d := by omega
  have hsc := Real.sin_sq_add_cos_sq t
  have hne : (⟨i, hi⟩ : Fin d) ≠ ⟨i + 1, hj⟩ := by simp
  ext a b
  rw [Matrix.mul_apply']
  show (givens i t f : Matrix (Fin d) (Fin d) ℝ) a ⬝ᵥ (givens i t f : Matrix (Fin d) (Fin d) ℝ) b = _
  rw [givens_row i t f hi hj, givens_row i t f hi hj]
  have key : ∀ a : Fin d, a.val = i → a = ⟨i, hi⟩ := fun a h => Fin.ext h
  have key' : ∀ a : Fin d, a.val = i + 1 → a = ⟨i + 1, hj⟩ := fun a h => Fin.ext h
  by_cases ha : a.val = i
  · have := key a ha; subst this
    by_cases hb : b.val = i
    · have := key b hb; subst this
      cases f <;> simp [add_dotProduct, dotProduct_add, hne, hne.symm] <;> linear_combination hsc
    · by_cases hb' : b.val = i + 1
      · have := key' b hb'; subst this
        cases f <;> simp [add_dotProduct, dotProduct_add, hne, hne.symm, Matrix.one_apply] <;> ring
      · have e1 : (⟨i, hi⟩ : Fin d) ≠ b := fun h => hb (by rw [← h])
        have e2 : (⟨i + 1, hj⟩ : Fin d) ≠ b := fun h => hb' (by rw [← h])
        cases f <;> simp [hb, hb', add_dotProduct, e1, e2, Matrix.one_apply, e1.symm, e2.symm, Pi.single_apply]
  · by_cases ha' : a.val = i + 1
    · have := key' a ha'; subst this
      by_cases hb : b.val = i
      · have := key b hb; subst this
        cases f <;> simp [add_dotProduct, dotProduct_add, hne, hne.symm, Matrix.one_apply] <;> ring
      · by_cases hb' : b.val = i + 1
        · have := key' b hb'; subst this
          cases f <;> simp [add_dotProduct, dotProduct_add, hne, hne.symm] <;> linear_combination hsc
        · have e1 : (⟨i, hi⟩ : Fin d) ≠ b := fun h => hb (by rw [← h])
          have e2 : (⟨i + 1, hj⟩ : Fin d) ≠ b := fun h => hb' (by rw [← h])
          cases f <;> simp [hb, hb', add_dotProduct, e1, e2, Matrix.one_apply, e1.symm, e2.symm, Pi.single_apply]
    · have e1 : (⟨i, hi⟩ : Fin d) ≠ a := fun h => ha (by rw [← h])
      have e2 : (⟨i + 1, hj⟩ : Fin d) ≠ a := fun h => ha' (by rw [← h])
      by_cases hb : b.val = i
      · have := key b hb; subst this
        cases f <;> simp [ha, ha', Matrix.one_apply, e1.symm, e2.symm, Pi.single_apply]
      · by_cases hb' : b.val = i + 1
        · have := key' b hb'; subst this
          cases f <;> simp [ha, ha', Matrix.one_apply, e1.symm, e2.symm, Pi.single_apply]
        · simp [ha, ha', hb, hb', Matrix.one_apply, Pi.single_apply, eq_comm]

theorem mem_range2 (a b : Int) (ha : 0 ≤ a) (i : Nat) (h : i ∈ range2 a b) : (i : Int) < b ∧ i % 2 = a.toNat % 2 := by
  unfold range2 at h
  obtain ⟨k, hk, rfl⟩ := List.mem_map.mp h
  rw [List.mem_range] at hk
  omega

theorem orthSeq_lt (d i : Nat) (h : i ∈ orthSeq d) : i + 1 < d := by
  unfold orthSeq at h
  split at h
  · rcases List.mem_append.mp h with h | h
    · have := mem_range2 _ _ (by norm_num) _ h; simp at this; omega
    · have := mem_range2 _ _ (by norm_num) _ h; omega
  · rcases List.mem_append.mp h with h | h
    · have := mem_range2 _ _ (by norm_num) _ h; omega
    · have := mem_range2 _ _ (by norm_num) _ h; simp at this; omega

/-- the even indices come first -/
theorem orthSeq_split (d : Nat) : ∃ e o, orthSeq d = e ++ o ∧ (∀ i ∈ e, i % 2 = 0) ∧ ∀ i ∈ o, i % 2 = 1 := by
  unfold orthSeq
  split
  · exact ⟨_, _, rfl, fun i h => by have := mem_range2 _ _ (by norm_num) _ h; simpa using this.2, fun i h => by have := mem_range2 _ _ (by norm_num) _ h; simpa using this.2⟩
  · exact ⟨_, _, rfl, fun i h => by have := mem_range2 _ _ (by norm_num) _ h; simpa using this.2, fun i h => by have := mem_range2 _ _ (by norm_num) _ h; simpa using this.2⟩

theorem givens_ne (i : Nat) (t : ℝ) (f : Bool) (k b : Fin d) (h : (givens i t f : Matrix (Fin d) (Fin d) ℝ) k b ≠ 0) : k = b ∨ ((k.val = i ∨ k.val = i + 1) ∧ (b.val = i ∨ b.val = i + 1)) := by
  unfold givens at h
  by_cases hkb : k = b
  · exact Or.inl hkb
  · right
    simp only [hkb, if_false] at h
    by_contra hc
    rw [if_neg (by omega), if_neg (by omega), if_neg (by omega), if_neg (by omega)] at h
    exact h rfl

theorem fold_support (P : Fin d → Fin d → Prop) (theta : Nat → ℝ) (flip : Nat → Bool) (l : List Nat)
    (hP : ∀ i ∈ l, ∀ a k b : Fin d, P a k → (k.val = i ∨ k.val = i + 1) → (b.val = i ∨ b.val = i + 1) → P a b) :
    ∀ Q : Matrix (Fin d) (Fin d) ℝ, (∀ a b, Q a b ≠ 0 → P a b) → ∀ a b, (l.foldl (fun Q i => Q * givens i (theta i) (flip i)) Q) a b ≠ 0 → P a b := by
  induction l with
  | nil => exact fun Q h => h
  | cons i l ih =>
    intro Q h
    rw [List.foldl_cons]
    refine ih (fun j hj => hP j (by simp [hj])) _ fun a b hab => ?_
    rw [Matrix.mul_apply] at hab
    obtain ⟨k, -, hk⟩ := Finset.exists_ne_zero_of_sum_ne_zero hab
    have hq : P a k := h a k (left_ne_zero_of_mul hk)
    rcases givens_ne _ _ _ _ _ (right_ne_zero_of_mul hk) with rfl | ⟨h1, h2⟩
    · exact hq
    · exact hP i (by simp) a k b hq h1 h2

/-! ### blockCombine -/

theorem combineRow_ok (v h : Nat) : ∀ (row : List Mat) (c : Nat) (res : Mat), (∀ m ∈ row, m.rows = h) → v + h ≤ res.rows → c + (row.map (·.cols)).sum ≤ res.cols →
    ∃ res', combineRow v h c (row.zip (row.map (·.cols))) res = .ok res' ∧ res'.rows = res.rows ∧ res'.cols = res.cols ∧
      ∀ a b, res'.at_ a b = if v ≤ a ∧ a < v + h ∧ c ≤ b ∧ b < c + (row.map (·.cols)).sum then rowAt row (a - v) (b - c) else res.at_ a b := by
  intro row
  induction row with
  | nil => intro c res _ _ _; exact ⟨res, rfl, rfl, rfl, fun a b => by rw [if_neg]; simp⟩
  | cons m row ih =>
    intro c res hm hv hc
    simp only [List.map_cons, List.sum_cons] at hc
    have hmr := hm m (by simp)
    have ha : ∃ r1, assign res v h c m.cols m = .ok r1 ∧ r1.rows = res.rows ∧ r1.cols = res.cols ∧
        ∀ a b, r1.at_ a b = if v ≤ a ∧ a < v + h ∧ c ≤ b ∧ b < c + m.cols then m.at_ (a - v) (b - c) else res.at_ a b := by
      unfold assign
      have e1 : min (v + h) res.rows - min v res.rows = h := by omega
      have e2 : min (c + m.cols) res.cols - min c res.cols = m.cols := by omega
      rw [e1, e2]
      simp only [hmr, true_or, and_self, if_true]
      refine ⟨_, rfl, rfl, rfl, fun a b => ?_⟩
      by_cases hin : v ≤ a ∧ a < v + h ∧ c ≤ b ∧ b < c + m.cols
      · show (if v ≤ a ∧ a < v + h ∧ c ≤ b ∧ b < c + m.cols then m.at_ (if h = 1 then 0 else a - v) (if m.cols = 1 then 0 else b - c) else res.at_ a b) = _
        rw [if_pos hin, if_pos hin]
        congr 1
        · split_ifs with h1 <;> omega
        · split_ifs with h1 <;> omega
      · show (if v ≤ a ∧ a < v + h ∧ c ≤ b ∧ b < c + m.cols then m.at_ (if h = 1 then 0 else a - v) (if m.cols = 1 then 0 else b - c) else res.at_ a b) = _
        rw [if_neg hin, if_neg hin]
    obtain ⟨r1, a1, a2, a3, a4⟩ := ha
    obtain ⟨r2, b1, b2, b3, b4⟩ := ih (c + m.cols) r1 (fun x hx => hm x (by simp [hx])) (by omega) (by omega)
    refine ⟨r2, ?_, b2.trans a2, b3.trans a3, fun a b => ?_⟩
    · simp only [List.map_cons, List.zip_cons_cons, combineRow, a1, bind, Except.bind, b1]
    · rw [b4, a4, rowAt]
      simp only [List.map_cons, List.sum_cons]
      generalize (row.map (·.cols)).sum = w at *
      by_cases h1 : v ≤ a ∧ a < v + h
      · by_cases h2 : c ≤ b ∧ b < c + m.cols
        · rw [if_neg (by omega), if_pos (by omega), if_pos (by omega), if_pos (by omega)]
        · by_cases h3 : c + m.cols ≤ b ∧ b < c + m.cols + w
          · rw [if_pos (by omega), if_pos (by omega), if_neg (by omega), show b - (c + m.cols) = b - c - m.cols by omega]
          · rw [if_neg (by omega), if_neg (by omega), if_neg (by omega)]
      · rw [if_neg (by omega), if_neg (by omega), if_neg (by omega)]

theorem combineRows_ok (hdims : List Nat) : ∀ (l : List (List Mat)) (v : Nat) (res : Mat), (∀ row ∈ l, row.map (·.cols) = hdims ∧ ∀ m ∈ row, m.rows = height row) →
    v + (l.map height).sum ≤ res.rows → hdims.sum ≤ res.cols →
    ∃ res', combineRows hdims v (l.zip (l.map height)) res = .ok res' ∧ res'.rows = res.rows ∧ res'.cols = res.cols ∧
      ∀ a b, b < hdims.sum → res'.at_ a b = if v ≤ a ∧ a < v + (l.map height).sum then blockAt l (a - v) b else res.at_ a b := by
  intro l
  induction l with
  | nil => intro v res _ _ _; exact ⟨res, rfl, rfl, rfl, fun a b _ => by rw [if_neg]; simp⟩
  | cons row l ih =>
    intro v res hm hv hc
    simp only [List.map_cons, List.sum_cons] at hv
    obtain ⟨h1, h2⟩ := hm row (by simp)
    obtain ⟨r1, a1, a2, a3, a4⟩ := combineRow_ok v (height row) row 0 res h2 (by omega) (by rw [h1]; omega)
    obtain ⟨r2, b1, b2, b3, b4⟩ := ih (v + height row) r1 (fun x hx => hm x (by simp [hx])) (by omega) (by omega)
    have hlen : ¬ row.length > hdims.length := by rw [← h1, List.length_map]; omega
    refine ⟨r2, ?_, b2.trans a2, b3.trans a3, fun a b hb => ?_⟩
    · rw [h1] at a1
      simp only [List.map_cons, List.zip_cons_cons, combineRows, a1, bind, Except.bind, hlen, if_false, b1]
    · rw [b4 a b hb, a4, blockAt, h1]
      simp only [List.map_cons, List.sum_cons]
      generalize (l.map height).sum = w at *
      by_cases c1 : v + height row ≤ a ∧ a < v + height row + w
      · rw [if_pos c1, if_pos (by omega), if_neg (by omega), show a - (v + height row) = a - v - height row by omega]
      · rw [if_neg c1]
        by_cases c2 : v ≤ a ∧ a < v + height row
        · rw [if_pos (by omega), if_pos (by omega), if_pos (by omega), Nat.sub_zero]
        · rw [if_neg (by omega), if_neg (by omega)]

theorem combineRow_shape (v h : Nat) : ∀ (row : List (Mat × Nat)) (c : Nat) (res res' : Mat), combineRow v h c row res = .ok res' → res'.rows = res.rows ∧ res'.cols = res.cols := by
  intro row
  induction row with
  | nil => intro c res res' h; cases h; exact ⟨rfl, rfl⟩
  | cons p row ih =>
    obtain ⟨m, w⟩ := p
    intro c res res' hr
    rw [combineRow] at hr
    cases ha : assign res v h c w m with
    | error e => rw [ha] at hr; cases hr
    | ok r =>
      rw [ha] at hr
      have hs : r.rows = res.rows ∧ r.cols = res.cols := by
        unfold assign at ha
        dsimp only at ha
        by_cases hc : (m.rows = min (v + h) res.rows - min v res.rows ∨ m.rows = 1) ∧ (m.cols = min (c + w) res.cols - min c res.cols ∨ m.cols = 1)
        · rw [if_pos hc] at ha; cases ha; exact ⟨rfl, rfl⟩
        · rw [if_neg hc] at ha; cases ha
      obtain ⟨t1, t2⟩ := ih _ _ _ hr
      exact ⟨t1.trans hs.1, t2.trans hs.2⟩

theorem combineRows_shape (hdims : List Nat) : ∀ (l : List (List Mat × Nat)) (v : Nat) (res res' : Mat), combineRows hdims v l res = .ok res' → res'.rows = res.rows ∧ res'.cols = res.cols := by
  intro l
  induction l with
  | nil => intro v res res' h; cases h; exact ⟨rfl, rfl⟩
  | cons p l ih =>
    obtain ⟨row, h⟩ := p
    intro v res res' hr
    rw [combineRows] at hr
    cases hc : combineRow v h 0 (row.zip hdims) res with
    | error e => rw [hc] at hr; cases hr
    | ok r =>
      obtain ⟨s1, s2⟩ := combineRow_shape _ _ _ _ _ _ hc
      rw [hc] at hr
      simp only [bind, Except.bind] at hr
      by_cases hg : row.length > hdims.length
      · simp only [hg, if_true] at hr; cases hr
      · simp only [hg, if_false] at hr
        obtain ⟨t1, t2⟩ := ih _ _ _ hr
        exact ⟨t1.trans s1, t2.trans s2⟩

theorem heights_ok (l : List (List Mat)) (h : ∀ row ∈ l, row ≠ []) : l.mapM rowHeight = .ok (l.map height) := by
  induction l with
  | nil => rfl
  | cons row l ih =>
    rw [List.mapM_cons, ih fun x hx => h x (by simp [hx])]
    cases row with
    | nil => exact absurd rfl (h [] (by simp))
    | cons m row => rfl

end Verif.Util

namespace Verif.Props
open Verif.Util Verif.Util.Spec Matrix
open Verif.DataSet (Err)

/-- **C141, sparse orthogonal matrices.** For every dimension and all random numbers the matrix is orthogonal, and each row has at most four entries that are not zero, in neighbouring columns. -/
theorem C141_orthogonal (d : Nat) (theta : Nat → ℝ) (flip : Nat → Bool) :
    sparseOrth d theta flip * (sparseOrth d theta flip)ᵀ = 1 ∧ (sparseOrth d theta flip)ᵀ * sparseOrth d theta flip = 1 ∧
      ∀ a b : Fin d, sparseOrth d theta flip a b ≠ 0 → 2 * (a.val / 2) ≤ b.val + 1 ∧ b.val ≤ 2 * (a.val / 2) + 2 := by
  have key : ∀ (l : List Nat), (∀ i ∈ l, i + 1 < d) → ∀ Q : Matrix (Fin d) (Fin d) ℝ, Q * Qᵀ = 1 →
      (l.foldl (fun Q i => Q * givens i (theta i) (flip i)) Q) * (l.foldl (fun Q i => Q * givens i (theta i) (flip i)) Q)ᵀ = 1 := by
    intro l
    induction l with
    | nil => exact fun _ Q h => h
    | cons i l ih =>
      intro hl Q hQ
      rw [List.foldl_cons]
      refine ih (fun j hj => hl j (by simp [hj])) _ ?_
      rw [Matrix.transpose_mul, Matrix.mul_assoc, ← Matrix.mul_assoc (givens i _ _), givens_orth _ _ _ (hl i (by simp)), Matrix.one_mul, hQ]
  have h1 := key (orthSeq d) (orthSeq_lt d) 1 (by simp)
  refine ⟨h1, mul_eq_one_comm.mp h1, fun a b hab => ?_⟩
  obtain ⟨e, o, he, he1, ho1⟩ := orthSeq_split d
  unfold sparseOrth at hab
  rw [he, List.foldl_append] at hab
  have hE := fold_support (d := d) (fun a b => a.val / 2 = b.val / 2) theta flip e (by intro i hi a k b; have := he1 i hi; omega) 1
    (by intro a b h; by_contra hc; exact h (Matrix.one_apply_ne (by rintro rfl; exact hc rfl)))
  obtain ⟨k, hk1, hk2⟩ := fold_support (d := d) (fun a b => ∃ k : Nat, k / 2 = a.val / 2 ∧ (k + 1) / 2 = (b.val + 1) / 2) theta flip o
    (by rintro i hi a k b ⟨k', h1, h2⟩ h3 h4; have := ho1 i hi; exact ⟨k', h1, by omega⟩) _ (fun a b h => ⟨b.val, (hE a b h).symm, rfl⟩) a b hab
  omega

/-- **C141, blocks.** If the matrices of each row have the same height, all rows have the same widths, and the result is square, the matrices are put together as they are given. -/
theorem C141_blocks_partial (first : List Mat) (rest : List (List Mat)) (hne : first ≠ []) (hd : ∀ row ∈ first :: rest, row.map (·.cols) = first.map (·.cols) ∧ ∀ m ∈ row, m.rows = height row)
    (hsq : (first.map (·.cols)).sum = ((first :: rest).map height).sum) :
    ∃ res, blockCombine (first :: rest) = .ok res ∧ res.rows = ((first :: rest).map height).sum ∧ res.cols = (first.map (·.cols)).sum ∧
      ∀ a b, a < res.rows → b < res.cols → res.at_ a b = blockAt (first :: rest) a b := by
  have hrow : ∀ row ∈ first :: rest, row ≠ [] := by
    rintro row hr rfl
    have := (hd _ hr).1
    simp at this; exact hne this
  obtain ⟨res, h1, h2, h3, h4⟩ := combineRows_ok (first.map (·.cols)) (first :: rest) 0 ⟨(first.map (·.cols)).sum, ((first :: rest).map height).sum, fun _ _ => 0⟩ hd (by simp only [hsq]; omega) (by simp only [hsq]; exact le_rfl)
  refine ⟨res, ?_, by rw [h2]; exact hsq, by rw [h3]; exact hsq.symm, fun a b ha hb => ?_⟩
  · unfold blockCombine
    simp only [heights_ok _ hrow, bind, Except.bind]
    exact h1
  · rw [h2] at ha; rw [h3] at hb
    simp only at ha hb
    rw [h4 a b (by omega), if_pos (by omega), Nat.sub_zero]

/-- **C141 violated: blocks of other shapes.** The numbers of rows and columns of the result are exchanged: whenever there is a result, it has as many rows as the matrices of the first row have columns. A single matrix that is not square is refused
(`ValueError`). -/
theorem C141_negation_blocks :
    (∀ (first : List Mat) (rest : List (List Mat)) (res : Mat), blockCombine (first :: rest) = .ok res → res.rows = (first.map (·.cols)).sum) ∧
    ∀ m : Mat, 0 < m.rows → 0 < m.cols → m.rows ≠ m.cols → blockCombine [[m]] = .error .valueError := by
  refine ⟨fun first rest res h => ?_, fun m h1 h2 hne => ?_⟩
  · unfold blockCombine at h
    dsimp only at h
    cases hm : (first :: rest).mapM rowHeight with
    | error e => rw [hm] at h; cases h
    | ok v =>
      rw [hm] at h
      exact (combineRows_shape _ _ _ _ _ h).1
  · have : blockCombine [[m]] = (assign ⟨m.cols, m.rows, fun _ _ => 0⟩ 0 m.rows 0 m.cols m >>= fun r => Except.ok r) := by
      unfold blockCombine
      simp only [rowHeight, List.mapM_cons, List.mapM_nil, bind, Except.bind, pure, Except.pure, List.map_cons, List.map_nil, List.sum_cons, List.sum_nil, Nat.add_zero, List.zip_cons_cons, List.zip_nil_right, combineRows, combineRow]
      cases assign ⟨m.cols, m.rows, fun _ _ => 0⟩ 0 m.rows 0 m.cols m <;> simp
    rw [this]
    unfold assign
    simp only [Nat.zero_add, Nat.zero_min, Nat.sub_zero]
    rw [if_neg (by omega)]
    rfl

/-- **C141, binary numbers.** For arrays whose length is a multiple of 8, the result is the number with these binary digits, the highest first. -/
theorem C141_binary_partial (bits : List Bool) (h : bits.length % 8 = 0) : binArr2int bits = binary bits := by
  rw [binArr2int_eq, h]; simp

/-- **C141 violated: binary numbers.** For all other lengths the number is multiplied by a power of 2, so that arrays of different numbers (here 1 and 10 in binary digits) are not told apart. -/
theorem C141_negation_binary : (∀ bits : List Bool, binArr2int bits = binary bits * 2 ^ ((8 - bits.length % 8) % 8)) ∧ binary [true] = 1 ∧ binArr2int [true] = 128 ∧ binary [true, false] = 2 ∧ binArr2int [true, false] = 128 :=
  ⟨fun bits => by rw [binArr2int_eq, binary_pad], by decide, by decide, by decide, by decide⟩

/-- **C141 violated: scaling to an interval.** The array is to be scaled to the interval, but its largest value `M` becomes the upper end only if the largest and the smallest value differ by 1; if they differ by more, values end up outside of
the interval. -/
theorem C141_negation_linscale (m M lo hi : ℝ) (hlim : lo < hi) : linscale m lo hi m = lo ∧ (linscale m lo hi M = hi ↔ M - m = 1) ∧ (1 < M - m → hi < linscale m lo hi M) := by
  unfold linscale
  have : 0 < hi - lo := by linarith
  refine ⟨by ring, ⟨fun h => ?_, fun h => by rw [h]; ring⟩, fun h => by nlinarith⟩
  have h2 : (M - m - 1) * (hi - lo) = 0 := by linarith
  rcases mul_eq_zero.mp h2 with h | h <;> linarith

/-- the hypotheses are met: four blocks of different sizes with a square result, and eight binary digits -/
example : let first : List Mat := [⟨1, 1, fun _ _ => 1⟩, ⟨1, 2, fun _ b => b⟩]
    let second : List Mat := [⟨2, 1, fun a _ => a⟩, ⟨2, 2, fun a b => a + b⟩]
    (∀ row ∈ [first, second], row.map (·.cols) = first.map (·.cols) ∧ ∀ m ∈ row, m.rows = height row) ∧ (first.map (·.cols)).sum = ([first, second].map height).sum ∧
    binArr2int [false, false, false, false, true, false, true, true] = 11 := by
  refine ⟨?_, by simp [height], by decide⟩
  intro row hr
  simp only [List.mem_cons, List.not_mem_nil, or_false] at hr
  rcases hr with rfl | rfl <;> simp [height]

end Verif.Props

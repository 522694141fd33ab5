import Verif.Model.Blocks
import Mathlib.Tactic.Ring
import Mathlib.Tactic.ByContra
import Mathlib.Algebra.BigOperators.Group.List.Basic
import Mathlib.Algebra.Order.Ring.Nat
/-
Property theorems C20 (triangular packing) and C61 (block permutation and block diagonals), pybrain/utilities.py.
-/
namespace Verif.Props
open Verif.Blocks

variable {K : Type} [Zero K]

/-- where row `r` starts in the packed vector -/
def rowStart (dim : Nat) : Nat → Nat
  | 0 => 0
  | r + 1 => rowStart dim r + (dim - r)

theorem rowStart_mono (dim : Nat) {a b : Nat} (h : a ≤ b) : rowStart dim a ≤ rowStart dim b := by
  induction h with
  | refl => exact Nat.le_refl _
  | step _ ih => exact Nat.le_trans ih (Nat.le_add_right _ _)

theorem rowStart_total (dim : Nat) : 2 * rowStart dim dim = dim * (dim + 1) := by
  have : ∀ r, r ≤ dim → 2 * rowStart dim r + (dim - r) * (dim - r + 1) = dim * (dim + 1) := by
    intro r
    induction r with
    | zero => intro _; simp [rowStart]
    | succ r ih =>
      intro hr
      have := ih (by omega)
      obtain ⟨k, hk⟩ : ∃ k, dim - r = k + 1 := ⟨dim - r - 1, by omega⟩
      have hk2 : dim - (r + 1) = k := by omega
      rw [hk] at this
      rw [rowStart, hk, hk2]
      have e1 : (k + 1) * (k + 1 + 1) = k * (k + 1) + 2 * (k + 1) := by ring
      omega
  have h := this dim (Nat.le_refl _)
  simpa using h

theorem rowStart_cover (dim : Nat) : ∀ n k, k < rowStart dim n → ∃ r c, r < n ∧ c < dim - r ∧ k = rowStart dim r + c := by
  intro n
  induction n with
  | zero => intro k h; simp [rowStart] at h
  | succ n ih =>
    intro k h
    by_cases hk : k < rowStart dim n
    · obtain ⟨r, c, h1, h2, h3⟩ := ih k hk
      exact ⟨r, c, by omega, h2, h3⟩
    · exact ⟨n, k - rowStart dim n, by omega, by rw [rowStart] at h; omega, by omega⟩

theorem flat_loop (m : Nat → Nat → K) (dim : Nat) : ∀ n, n ≤ dim →
    ((List.range n).foldl (flatStep m dim) (fun _ => 0, 0)).2 = rowStart dim n ∧
    ∀ r c, r < n → c < dim - r → ((List.range n).foldl (flatStep m dim) (fun _ => 0, 0)).1 (rowStart dim r + c) = m r (r + c) := by
  intro n
  induction n with
  | zero => intro _; exact ⟨rfl, fun r c h => by omega⟩
  | succ n ih =>
    intro hn
    obtain ⟨h1, h2⟩ := ih (by omega)
    rw [List.range_succ, List.foldl_append, List.foldl_cons, List.foldl_nil]
    refine ⟨by simp [flatStep, h1, rowStart], fun r c hr hc => ?_⟩
    simp only [flatStep, setSlice, h1]
    by_cases hrn : r = n
    · subst hrn
      rw [if_pos ⟨by omega, by omega⟩]
      congr 2; omega
    · have hm := rowStart_mono dim (show r + 1 ≤ n by omega)
      rw [rowStart] at hm
      rw [if_neg (by omega)]
      exact h2 r c (by omega) hc

theorem triu_loop (a : Nat → K) (dim : Nat) : ∀ n, n ≤ dim →
    ((List.range n).foldl (triuStep a dim) (fun _ _ => 0, 0)).2 = rowStart dim n ∧
    ∀ i j, ((List.range n).foldl (triuStep a dim) (fun _ _ => 0, 0)).1 i j
      = if i < n ∧ i ≤ j ∧ j < dim then a (rowStart dim i + (j - i)) else 0 := by
  intro n
  induction n with
  | zero => intro _; exact ⟨rfl, fun i j => by simp⟩
  | succ n ih =>
    intro hn
    obtain ⟨h1, h2⟩ := ih (by omega)
    rw [List.range_succ, List.foldl_append, List.foldl_cons, List.foldl_nil]
    refine ⟨by simp [triuStep, h1, rowStart], fun i j => ?_⟩
    simp only [triuStep, setSlice, h1]
    by_cases hi : i = n
    · subst hi
      rw [if_pos rfl]
      simp only [setSlice]
      by_cases hj : i ≤ j ∧ j < dim
      · rw [if_pos hj, if_pos ⟨by omega, hj.1, hj.2⟩]
      · rw [if_neg hj, h2, if_neg (by omega), if_neg (by omega)]
    · rw [if_neg hi, h2]
      by_cases hc : i < n ∧ i ≤ j ∧ j < dim
      · rw [if_pos hc, if_pos ⟨by omega, hc.2⟩]
      · rw [if_neg hc, if_neg (by omega)]

/-- **C20, unpacking what was packed.** For every upper triangular matrix `M`, `flat2triu(triu2flat(M), dim) = M`. -/
theorem C20_matrix_roundtrip (M : Nat → Nat → K) (dim : Nat) (hM : ∀ i j, j < i → M i j = 0) (i j : Nat) (hi : i < dim)
    (hj : j < dim) : flat2triu (triu2flat M dim) dim i j = M i j := by
  have h1 := (triu_loop (triu2flat M dim) dim dim (Nat.le_refl _)).2 i j
  unfold flat2triu
  rw [h1]
  by_cases hij : i ≤ j
  · rw [if_pos ⟨hi, hij, hj⟩]
    have := (flat_loop M dim dim (Nat.le_refl _)).2 i (j - i) hi (by omega)
    rw [show i + (j - i) = j by omega] at this
    exact this
  · rw [if_neg (by omega), hM i j (by omega)]

/-- **C20, packing what was unpacked.** For every vector of `dim (dim+1) / 2` entries,
`triu2flat(flat2triu(v, dim)) = v`. -/
theorem C20_vector_roundtrip (v : Nat → K) (dim k : Nat) (hk : k < dim * (dim + 1) / 2) :
    triu2flat (flat2triu v dim) dim k = v k := by
  have ht := rowStart_total dim
  obtain ⟨r, c, hr, hc, rfl⟩ := rowStart_cover dim dim k (by omega)
  have h1 := (flat_loop (flat2triu v dim) dim dim (Nat.le_refl _)).2 r c hr hc
  have h2 := (triu_loop v dim dim (Nat.le_refl _)).2 r (r + c)
  unfold triu2flat
  rw [h1]
  unfold flat2triu
  rw [h2, if_pos ⟨hr, by omega, by omega⟩]
  congr 1; omega

/-- **C20, shape.** `flat2triu` always returns an upper triangular matrix. -/
theorem C20_upper (v : Nat → K) (dim i j : Nat) (h : j < i) : flat2triu v dim i j = 0 := by
  have h2 := (triu_loop v dim dim (Nat.le_refl _)).2 i j
  unfold flat2triu
  rw [h2, if_neg (by omega)]

example : (List.range 6).map (triu2flat (fun i j => if i ≤ j then (10 * i + j : Nat) else 0) 3) = [0, 1, 2, 11, 12, 22] := by decide

/-! ### C61  Blocks -/

/-- the position of the entry in row `y`, column `x` in the linearised blocks: block after block, row by row -/
def inBlocks (width bh bw y x : Nat) : Nat :=
  ((y / bh) * (width / bw) + x / bw) * (bw * bh) + (y % bh) * bw + x % bw

theorem blockPos_eq (width bh bw y x : Nat) (hx : x < width) (hbw : 0 < bw) (hd : bw ∣ width) :
    blockPos width bh bw (y * width + x) = inBlocks width bh bw y x := by
  obtain ⟨q, rfl⟩ := hd
  have hw : 0 < bw * q := by omega
  have e1 : (y * (bw * q) + x) % (bw * q) = x := by
    rw [Nat.mul_comm y, Nat.mul_add_mod]; exact Nat.mod_eq_of_lt hx
  have e2 : (y * (bw * q) + x) / (bw * q) = y := by
    rw [Nat.mul_comm y, Nat.mul_add_div hw, Nat.div_eq_of_lt hx]; simp
  have e3 : (y * (bw * q) + x) % bw = x % bw := by
    rw [show y * (bw * q) + x = bw * (y * q) + x by ring, Nat.mul_add_mod]
  have e4 : y / bh * (bw * q) / bw = y / bh * q := by
    rw [show y / bh * (bw * q) = bw * (y / bh * q) by ring]; exact Nat.mul_div_cancel_left _ hbw
  unfold blockPos inBlocks
  simp only [e1, e2, e3, e4, Nat.mul_div_cancel_left _ hbw]

theorem divmod_inj {b q1 q2 r1 r2 : Nat} (h1 : r1 < b) (h2 : r2 < b) (h : q1 * b + r1 = q2 * b + r2) : q1 = q2 ∧ r1 = r2 := by
  have hb : 0 < b := by omega
  have a1 : (q1 * b + r1) / b = q1 := by rw [Nat.mul_comm q1, Nat.mul_add_div hb, Nat.div_eq_of_lt h1]; simp
  have a2 : (q2 * b + r2) / b = q2 := by rw [Nat.mul_comm q2, Nat.mul_add_div hb, Nat.div_eq_of_lt h2]; simp
  rw [h, a2] at a1
  subst a1
  exact ⟨rfl, by omega⟩

theorem inBlocks_inj (width bh bw : Nat) (hbh : 0 < bh) (hbw : 0 < bw) (hd : bw ∣ width) {y x y' x' : Nat} (hx : x < width)
    (hx' : x' < width) (h : inBlocks width bh bw y x = inBlocks width bh bw y' x') : y = y' ∧ x = x' := by
  unfold inBlocks at h
  have m1 : ∀ (y x : Nat), (y % bh) * bw + x % bw < bw * bh := by
    intro y x
    have a := Nat.mod_lt y hbh
    have b := Nat.mod_lt x hbw
    calc (y % bh) * bw + x % bw < (y % bh) * bw + bw := by omega
      _ = (y % bh + 1) * bw := by ring
      _ ≤ bh * bw := Nat.mul_le_mul_right _ a
      _ = bw * bh := Nat.mul_comm _ _
  rw [Nat.add_assoc, Nat.add_assoc] at h
  obtain ⟨h1, h2⟩ := divmod_inj (m1 y x) (m1 y' x') h
  obtain ⟨h3, h4⟩ := divmod_inj (Nat.mod_lt x hbw) (Nat.mod_lt x' hbw) h2
  have l : ∀ x, x < width → x / bw < width / bw := by
    intro x hx
    obtain ⟨q, rfl⟩ := hd
    rw [Nat.mul_div_cancel_left _ hbw]
    exact Nat.div_lt_of_lt_mul hx
  obtain ⟨h5, h6⟩ := divmod_inj (l x hx) (l x' hx') h1
  refine ⟨?_, ?_⟩
  · rw [← Nat.div_add_mod y bh, ← Nat.div_add_mod y' bh, h5, h3]
  · rw [← Nat.div_add_mod x bw, ← Nat.div_add_mod x' bw, h6, h4]

theorem write_loop (arr : Nat → K) (pos : Nat → Nat) : ∀ n, (∀ i j, i < n → j < n → pos i = pos j → i = j) → ∀ i, i < n →
    ((List.range n).foldl (fun new i => fun j => if j = pos i then arr i else new j) (fun _ => 0)) (pos i) = arr i := by
  intro n
  induction n with
  | zero => intro _ i h; omega
  | succ n ih =>
    intro hinj i hi
    rw [List.range_succ, List.foldl_append, List.foldl_cons, List.foldl_nil]
    by_cases h : i = n
    · simp [h]
    · have hne : pos i ≠ pos n := fun he => h (hinj i n hi (by omega) he)
      simp only [hne, if_false]
      exact ih (fun a b ha hb => hinj a b (by omega) (by omega)) i (by omega)

/-- **C61, permuteToBlocks.** If the block size divides the width, the entry in row `y` and column `x` of the array is found,
after `permuteToBlocks2d`, at its place in the linearised blocks, and no two entries share a place; if the block height
divides the height as well, all places lie inside the array, so it is a permutation of the entries. -/
theorem C61_permuteToBlocks (arr : Nat → K) (height width bh bw : Nat) (hbh : 0 < bh) (hbw : 0 < bw) (hd : bw ∣ width) :
    (∀ y x, y < height → x < width →
      permuteToBlocks2d arr height width bh bw (inBlocks width bh bw y x) = arr (y * width + x)) ∧
    (∀ y x y' x', x < width → x' < width → inBlocks width bh bw y x = inBlocks width bh bw y' x' → y = y' ∧ x = x') ∧
    (bh ∣ height → ∀ y x, y < height → x < width → inBlocks width bh bw y x < height * width) := by
  refine ⟨?_, fun y x y' x' hx hx' h => inBlocks_inj width bh bw hbh hbw hd hx hx' h, ?_⟩
  · intro y x hy hx
    rw [← blockPos_eq width bh bw y x hx hbw hd]
    unfold permuteToBlocks2d
    have hw : 0 < width := by omega
    have hlt : y * width + x < height * width := by
      calc y * width + x < y * width + width := by omega
        _ = (y + 1) * width := by ring
        _ ≤ height * width := Nat.mul_le_mul_right _ hy
    refine write_loop arr (blockPos width bh bw) (height * width) ?_ _ hlt
    intro i j _ _ hij
    have hi : i = (i / width) * width + i % width := by rw [Nat.mul_comm]; exact (Nat.div_add_mod i width).symm
    have hj : j = (j / width) * width + j % width := by rw [Nat.mul_comm]; exact (Nat.div_add_mod j width).symm
    rw [hi, hj, blockPos_eq _ _ _ _ _ (Nat.mod_lt i hw) hbw hd, blockPos_eq _ _ _ _ _ (Nat.mod_lt j hw) hbw hd] at hij
    obtain ⟨a, b⟩ := inBlocks_inj width bh bw hbh hbw hd (Nat.mod_lt i hw) (Nat.mod_lt j hw) hij
    rw [hi, hj, a, b]
  · rintro ⟨p, rfl⟩ y x hy hx
    obtain ⟨q, rfl⟩ := hd
    unfold inBlocks
    rw [Nat.mul_div_cancel_left _ hbw]
    have a := Nat.mod_lt y hbh
    have b := Nat.mod_lt x hbw
    have c : y / bh < p := Nat.div_lt_of_lt_mul hy
    have d : x / bw < q := Nat.div_lt_of_lt_mul hx
    have e1 : (y % bh) * bw + x % bw < bw * bh := by
      calc (y % bh) * bw + x % bw < (y % bh) * bw + bw := by omega
        _ = (y % bh + 1) * bw := by ring
        _ ≤ bh * bw := Nat.mul_le_mul_right _ a
        _ = bw * bh := Nat.mul_comm _ _
    have e2 : y / bh * q + x / bw < p * q := by
      calc y / bh * q + x / bw < y / bh * q + q := by omega
        _ = (y / bh + 1) * q := by ring
        _ ≤ p * q := Nat.mul_le_mul_right _ c
    calc (y / bh * q + x / bw) * (bw * bh) + y % bh * bw + x % bw
        < (y / bh * q + x / bw) * (bw * bh) + bw * bh := by omega
      _ = (y / bh * q + x / bw + 1) * (bw * bh) := by ring
      _ ≤ (p * q) * (bw * bh) := Nat.mul_le_mul_right _ e2
      _ = bh * p * (bw * q) := by ring

example : (List.range 16).map (permuteToBlocks2d (fun i => i) 4 4 2 2) = [0, 1, 4, 5, 2, 3, 6, 7, 8, 9, 12, 13, 10, 11, 14, 15] := by decide

/-- the position of the entry (`z`, `y`, `x`) in the linearised blocks: block after block, inside each block layer by layer and row by row -/
def inBlocks3d (height width bd bh bw z y x : Nat) : Nat :=
  (((z / bd) * (height / bh) + y / bh) * (width / bw) + x / bw) * (bd * bh * bw) + ((z % bd) * bh + y % bh) * bw + x % bw

private theorem inBlocks_parts (width bh bw y x : Nat) (hbh : 0 < bh) (hbw : 0 < bw) :
    inBlocks width bh bw y x / (bw * bh) = (y / bh) * (width / bw) + x / bw ∧ inBlocks width bh bw y x % (bw * bh) = (y % bh) * bw + x % bw := by
  have e1 : (y % bh) * bw + x % bw < bw * bh := by
    have a := Nat.mod_lt y hbh
    have b := Nat.mod_lt x hbw
    calc (y % bh) * bw + x % bw < (y % bh) * bw + bw := by omega
      _ = (y % bh + 1) * bw := by ring
      _ ≤ bh * bw := Nat.mul_le_mul_right _ a
      _ = bw * bh := Nat.mul_comm _ _
  have hpos : 0 < bw * bh := Nat.mul_pos hbw hbh
  unfold inBlocks
  rw [Nat.add_assoc, Nat.mul_comm _ (bw * bh), Nat.mul_add_div hpos, Nat.mul_add_mod, Nat.div_eq_of_lt e1, Nat.mod_eq_of_lt e1]
  exact ⟨rfl, rfl⟩

private theorem inBlocks_layer (height width bh bw z y x : Nat) (hbh : 0 < bh) (hbw : 0 < bw) (hd : bw ∣ width) (hh : bh ∣ height) :
    inBlocks width bh bw (z * height + y) x = z * (height * width) + inBlocks width bh bw y x := by
  obtain ⟨q, rfl⟩ := hd
  obtain ⟨p, rfl⟩ := hh
  unfold inBlocks
  rw [show z * (bh * p) + y = bh * (z * p) + y by ring, Nat.mul_add_div hbh, Nat.mul_add_mod, Nat.mul_div_cancel_left _ hbw]
  ring

/-- **C61, permuteToBlocks in three dimensions.** If the block height and width divide the height and width of the array, the entry in layer `z`, row `y` and column `x` is found, after `permuteToBlocks3d`, at its place in the linearised
three-dimensional blocks, and no two entries share a place; if the depth of the blocks divides the depth as well, all places lie inside the array. -/
theorem C61_permuteToBlocks3d (arr : Nat → K) (depth height width bd bh bw : Nat) (hbd : 0 < bd) (hbh : 0 < bh) (hbw : 0 < bw) (hw : bw ∣ width) (hh : bh ∣ height) :
    (∀ z y x, z < depth → y < height → x < width →
      permuteToBlocks3d arr depth height width bd bh bw (inBlocks3d height width bd bh bw z y x) = arr ((z * height + y) * width + x)) ∧
    (∀ z y x z' y' x', y < height → x < width → y' < height → x' < width → inBlocks3d height width bd bh bw z y x = inBlocks3d height width bd bh bw z' y' x' → z = z' ∧ y = y' ∧ x = x') ∧
    (bd ∣ depth → ∀ z y x, z < depth → y < height → x < width → inBlocks3d height width bd bh bw z y x < depth * height * width) := by
  have hdiv : bw * bh ∣ height * width := by rw [Nat.mul_comm height]; exact Nat.mul_dvd_mul hw hh
  have hpos : 0 < bw * bh := Nat.mul_pos hbw hbh
  have hin : ∀ z y x, inBlocks3d height width bd bh bw z y x = inBlocks (height * width) bd (bw * bh) z (inBlocks width bh bw y x) := by
    intro z y x
    obtain ⟨p1, p2⟩ := inBlocks_parts width bh bw y x hbh hbw
    have hq : height * width / (bw * bh) = (height / bh) * (width / bw) := by
      obtain ⟨q, rfl⟩ := hw
      obtain ⟨p, rfl⟩ := hh
      rw [Nat.mul_div_cancel_left _ hbw, Nat.mul_div_cancel_left _ hbh, show bh * p * (bw * q) = bw * bh * (p * q) by ring, Nat.mul_div_cancel_left _ hpos]
    conv_rhs => rw [inBlocks, p1, p2, hq]
    unfold inBlocks3d
    ring
  have hlt : ∀ y x, y < height → x < width → inBlocks width bh bw y x < height * width := fun y x => (C61_permuteToBlocks arr height width bh bw hbh hbw hw).2.2 hh y x
  obtain ⟨s1, s2, s3⟩ := C61_permuteToBlocks (permuteToBlocks2d arr (height * depth) width bh bw) depth (height * width) bd (bw * bh) hbd hpos hdiv
  refine ⟨fun z y x hz hy hx => ?_, fun z y x z' y' x' hy hx hy' hx' h => ?_, fun hd z y x hz hy hx => ?_⟩
  · unfold permuteToBlocks3d
    rw [hin, s1 z _ hz (hlt y x hy hx), ← inBlocks_layer height width bh bw z y x hbh hbw hw hh]
    refine (C61_permuteToBlocks arr (height * depth) width bh bw hbh hbw hw).1 (z * height + y) x ?_ hx
    calc z * height + y < z * height + height := by omega
      _ = height * (z + 1) := by ring
      _ ≤ height * depth := Nat.mul_le_mul_left _ hz
  · rw [hin, hin] at h
    obtain ⟨h1, h2⟩ := s2 _ _ _ _ (hlt y x hy hx) (hlt y' x' hy' hx') h
    exact ⟨h1, inBlocks_inj width bh bw hbh hbw hw hx hx' h2⟩
  · rw [hin, Nat.mul_assoc]
    exact s3 hd z _ hz (hlt y x hy hx)

example : (List.range 16).map (permuteToBlocks3d (fun i => i) 2 2 4 2 1 2) = [0, 1, 8, 9, 2, 3, 10, 11, 4, 5, 12, 13, 6, 7, 14, 15] := by decide

/-- **C61, which shapes are accepted.** `permuteToBlocks` uses the two- or three-dimensional permutation exactly if array and blocks have the same number of dimensions, two or three. -/
theorem C61_dimensions (arr : Nat → K) (shape blockshape : List Nat) :
    ((∃ r, permuteToBlocks arr shape blockshape = .ok r) ↔ shape.length = blockshape.length ∧ (blockshape.length = 2 ∨ blockshape.length = 3)) ∧
    (∀ height width bh bw, permuteToBlocks arr [height, width] [bh, bw] = .ok (permuteToBlocks2d arr height width bh bw)) ∧
    (∀ depth height width bd bh bw, permuteToBlocks arr [depth, height, width] [bd, bh, bw] = .ok (permuteToBlocks3d arr depth height width bd bh bw)) := by
  refine ⟨?_, fun _ _ _ _ => rfl, fun _ _ _ _ _ _ => rfl⟩
  rcases blockshape with _ | ⟨a, _ | ⟨b, _ | ⟨c, _ | ⟨d, l⟩⟩⟩⟩
  · simp [permuteToBlocks]
  · simp [permuteToBlocks]
  · rcases shape with _ | ⟨h, _ | ⟨w, _ | ⟨_, _⟩⟩⟩ <;> simp [permuteToBlocks]
  · rcases shape with _ | ⟨h, _ | ⟨w, _ | ⟨v, _ | ⟨_, _⟩⟩⟩⟩ <;> simp [permuteToBlocks]
  · simp [permuteToBlocks]

theorem diag_loop (l : List (Nat × (Nat → Nat → K))) : ∀ (res : Nat → Nat → K) (index : Nat),
    (l.foldl diagStep (res, index)).2 = index + (l.map (·.1)).sum ∧
    (∀ i j, (i < index ∨ j < index) → (l.foldl diagStep (res, index)).1 i j = res i j) ∧
    (∀ k d m, l[k]? = some (d, m) → ∀ i, i < d → ∀ j, index ≤ j →
      (l.foldl diagStep (res, index)).1 (index + ((l.take k).map (·.1)).sum + i) j
        = if index + ((l.take k).map (·.1)).sum ≤ j ∧ j < index + ((l.take k).map (·.1)).sum + d
          then m i (j - (index + ((l.take k).map (·.1)).sum)) else res (index + ((l.take k).map (·.1)).sum + i) j) := by
  induction l with
  | nil => intro res index; exact ⟨rfl, fun i j _ => rfl, fun k d m h => by simp at h⟩
  | cons p l ih =>
    intro res index
    obtain ⟨d0, m0⟩ := p
    obtain ⟨h1, h2, h3⟩ := ih (diagStep (res, index) (d0, m0)).1 (index + d0)
    rw [List.foldl_cons]
    have hpair : diagStep (res, index) (d0, m0) = ((diagStep (res, index) (d0, m0)).1, index + d0) := rfl
    rw [hpair]
    refine ⟨by rw [h1]; simp; omega, ?_, ?_⟩
    · intro i j hij
      rw [h2 i j (by omega)]
      simp only [diagStep]
      rw [if_neg (by omega)]
    · intro k d m hk i hi j hj
      cases k with
      | zero =>
        simp only [List.getElem?_cons_zero, Option.some.injEq, Prod.mk.injEq] at hk
        obtain ⟨rfl, rfl⟩ := hk
        simp only [List.take_zero, List.map_nil, List.sum_nil, Nat.add_zero]
        rw [h2 _ _ (Or.inl (by omega))]
        simp only [diagStep]
        by_cases hc : index ≤ j ∧ j < index + d0
        · rw [if_pos ⟨by omega, by omega, hc.1, hc.2⟩, if_pos hc, show index + i - index = i by omega]
        · rw [if_neg (by omega), if_neg hc]
      | succ k =>
        simp only [List.getElem?_cons_succ] at hk
        simp only [List.take_succ_cons, List.map_cons, List.sum_cons]
        rw [show index + (d0 + ((l.take k).map (·.1)).sum) = index + d0 + ((l.take k).map (·.1)).sum by omega]
        have hres : (diagStep (res, index) (d0, m0)).1 (index + d0 + ((l.take k).map (·.1)).sum + i) j
            = res (index + d0 + ((l.take k).map (·.1)).sum + i) j := by
          simp only [diagStep]
          rw [if_neg (by omega)]
        by_cases hj2 : index + d0 ≤ j
        · rw [h3 k d m hk i hi j hj2, hres]
        · rw [h2 _ _ (Or.inr (by omega)), hres, if_neg (by omega)]

/-- **C61, block diagonals.** In the matrix built by `blockList2Matrix`, a row that belongs to block `k` shows the row of that
block in the block's own columns and zeros elsewhere. -/
theorem C61_blockList2Matrix (l : List (Nat × (Nat → Nat → K))) (k d : Nat) (m : Nat → Nat → K) (hk : l[k]? = some (d, m)) (i j : Nat)
    (hi : i < d) :
    blockList2Matrix l (((l.take k).map (·.1)).sum + i) j
      = if ((l.take k).map (·.1)).sum ≤ j ∧ j < ((l.take k).map (·.1)).sum + d then m i (j - ((l.take k).map (·.1)).sum) else 0 := by
  have := (diag_loop l (fun _ _ => 0) 0).2.2 k d m hk i hi j (Nat.zero_le _)
  simpa [blockList2Matrix] using this

example : (List.range 3).map (fun i => (List.range 3).map (blockList2Matrix [(1, fun _ _ => (7 : Nat)), (2, fun i j => 2 * i + j + 1)] i))
    = [[7, 0, 0], [0, 1, 2], [0, 3, 4]] := by decide

end Verif.Props

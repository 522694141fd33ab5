import Verif.Lemmas.Swiping
/-
C108 Swiping networks (MultiDimensionalRNN).
-/
namespace Verif.Swiping
open Verif.Net Verif.Mesh Verif.Mesh.Spec Spec

/-- a network for `c`: built and sorted -/
def Built (c : Cfg) (name : Node → String) (N : Net Node Mother ℝ) : Prop := ∃ p, multiDimensionalRNN c = .ok p ∧ p.sort name = .ok N

/-- a configuration with two dimensions -/
def small : Cfg := { dims := [2, 3], insize := 1, outputs := 1, hsize := 2, symmetricdimensions := true, symmetricdirections := true, f := id, g := id }

theorem small_ok : Cfg.Ok small := ⟨by simp [small], by simp [small], by simp [small], by simp [small], by simp [small]⟩

theorem built_run {c : Cfg} (ok : Cfg.Ok c) {name : Node → String} {N : Net Node Mother ℝ} (hN : Built c name N) (θ : Mother → Vec ℝ) (b : Bufs Node Mother ℝ) (x : Vec ℝ) :
    ∃ H, Swipes c (weights c θ) (inputAt c x) H ∧
      ∀ u, InGrid c.dims u → ∀ j < c.outputs, (activate N θ b x).2 (c.outputs * rowMajor c.dims u + j) = result c (weights c θ) H u j := by
  obtain ⟨p, N', h1, h2, _, h3⟩ := run c ok name
  obtain ⟨p', g1, g2⟩ := hN
  rw [h1] at g1
  cases g1
  rw [h2] at g2
  cases g2
  exact h3 θ b x

end Verif.Swiping

namespace Verif.Props
open Verif.Net Verif.Net.Spec Verif.Mesh Verif.Mesh.Spec Verif.Swiping Verif.Swiping.Spec

/-- **C108, construction.** For any number of dimensions, all at least 2, a multi-dimensional recurrent network can be built, and its modules can be put into a
feed-forward order. -/
theorem C108_build (c : Cfg) (ok : Cfg.Ok c) (name : Node → String) : ∃ N, Built c name N ∧ WF N := by
  obtain ⟨p, N, h1, h2, h3, _⟩ := run c ok name
  exact ⟨N, ⟨p, h1, h2⟩, h3⟩

example : Cfg.Ok small := small_ok

/-- **C108, output.** An activation computes what swiping describes: there is exactly one assignment of states to the units and swipes that solves the equations
of the swipes for the given inputs; and the output at every unit of the grid is computed from the states of all swipes there. Inputs and outputs of the units are
arranged row by row. -/
theorem C108_output (c : Cfg) (ok : Cfg.Ok c) (name : Node → String) (N : Net Node Mother ℝ) (hN : Built c name N) (θ : Mother → Vec ℝ) (b : Bufs Node Mother ℝ) (x : Vec ℝ) :
    (∃ H, Swipes c (weights c θ) (inputAt c x) H) ∧
    (∀ H H', Swipes c (weights c θ) (inputAt c x) H → Swipes c (weights c θ) (inputAt c x) H' →
      ∀ u, InGrid c.dims u → ∀ s < 2 ^ c.dims.length, ∀ j < c.hsize, H u s j = H' u s j) ∧
    (∀ H, Swipes c (weights c θ) (inputAt c x) H → ∀ u, InGrid c.dims u → ∀ j < c.outputs,
      (activate N θ b x).2 (c.outputs * rowMajor c.dims u + j) = result c (weights c θ) H u j) := by
  obtain ⟨H, hH, hy⟩ := built_run ok hN θ b x
  refine ⟨⟨H, hH⟩, fun H H' h h' u hu s hs j hj => swipes_unique c _ _ H H' h h' _ u hu s hs le_rfl j hj, fun H' h' u hu j hj => ?_⟩
  rw [hy u hu j hj]
  exact result_unique c _ _ H H' hH h' u hu j

/-- **C108, mirror images.** With symmetric directions, a network treats mirror images alike: if the inputs are reversed along one dimension, the outputs are
the same, reversed along that dimension. -/
theorem C108_mirror (c : Cfg) (ok : Cfg.Ok c) (sym : c.symmetricdirections = true) (name : Node → String) (N : Net Node Mother ℝ) (hN : Built c name N)
    (θ : Mother → Vec ℝ) (b b' : Bufs Node Mother ℝ) (d : Nat) (hd : d < c.dims.length) (x x' : Vec ℝ)
    (hx : ∀ u, InGrid c.dims u → ∀ i < c.insize, x' (c.insize * rowMajor c.dims u + i) = x (c.insize * rowMajor c.dims (mirror c.dims d u) + i)) :
    ∀ u, InGrid c.dims u → ∀ j < c.outputs,
      (activate N θ b' x').2 (c.outputs * rowMajor c.dims u + j) = (activate N θ b x).2 (c.outputs * rowMajor c.dims (mirror c.dims d u) + j) := by
  intro u hu j hj
  obtain ⟨H, hH, hy⟩ := built_run ok hN θ b x
  have hW : ∀ d j i, (weights c θ).wh d true j i = (weights c θ).wh d false j i := fun d j i => by simp [weights, sym]
  rw [hy _ (mirror_unit c.dims d u hu hd) j hj, (C108_output c ok name N hN θ b' x').2.2 _ (swipes_mirror c _ hW d hd _ H hH _ hx) u hu j hj]
  unfold result
  congr 1
  exact sum_flip _ d hd (fun s => ∑ i ∈ Finset.range c.hsize, (weights c θ).wout j i * H (mirror c.dims d u) s i)

example : mirror [2, 3] 1 [0, 0] = [0, 2] := by decide

/-- **C108, transposition.** With symmetric dimensions, a network treats two dimensions of the same size alike: if their coordinates are exchanged in the inputs,
the outputs are the same, with the coordinates exchanged. -/
theorem C108_transpose (c : Cfg) (ok : Cfg.Ok c) (sym : c.symmetricdimensions = true) (name : Node → String) (N : Net Node Mother ℝ) (hN : Built c name N)
    (θ : Mother → Vec ℝ) (b b' : Bufs Node Mother ℝ) (d e : Nat) (hd : d < c.dims.length) (he : e < c.dims.length) (hde : c.dims.getD d 0 = c.dims.getD e 0)
    (x x' : Vec ℝ)
    (hx : ∀ u, InGrid c.dims u → ∀ i < c.insize, x' (c.insize * rowMajor c.dims u + i) = x (c.insize * rowMajor c.dims (exchange d e u) + i)) :
    ∀ u, InGrid c.dims u → ∀ j < c.outputs,
      (activate N θ b' x').2 (c.outputs * rowMajor c.dims u + j) = (activate N θ b x).2 (c.outputs * rowMajor c.dims (exchange d e u) + j) := by
  intro u hu j hj
  obtain ⟨H, hH, hy⟩ := built_run ok hN θ b x
  have hW : ∀ d e p j i, (weights c θ).wh d p j i = (weights c θ).wh e p j i := by
    have : ∀ d : Nat, (if 0 < d ∧ c.symmetricdimensions = true then 0 else d) = 0 := by
      intro d
      by_cases h : 0 < d
      · rw [if_pos ⟨h, sym⟩]
      · rw [if_neg (fun h' => h h'.1)]; omega
    intro d e p j i
    simp only [weights, this]
  rw [hy _ (exchange_unit c.dims d e u hu hd he hde) j hj,
    (C108_output c ok name N hN θ b' x').2.2 _ (swipes_exchange c _ hW d e hd he hde _ H hH _ hx) u hu j hj]
  unfold result
  congr 1
  exact sum_swapBits _ d e hd he (fun s => ∑ i ∈ Finset.range c.hsize, (weights c θ).wout j i * H (exchange d e u) s i)

example : exchange 0 1 [3, 5] = [5, 3] := by decide

/-- **C108, reach.** The whole input is in reach of every output: with strictly increasing transfer functions and positive weights, raising any one of the inputs (and lowering
none) raises every output. -/
theorem C108_reach (c : Cfg) (ok : Cfg.Ok c) (name : Node → String) (N : Net Node Mother ℝ) (hN : Built c name N) (hf : StrictMono c.f) (hg : StrictMono c.g)
    (θ : Mother → Vec ℝ) (hθ : ∀ m k, 0 < θ m k) (b b' : Bufs Node Mother ℝ) (x x' : Vec ℝ) (hle : ∀ k < c.insize * c.dims.prod, x k ≤ x' k)
    (hlt : ∃ k < c.insize * c.dims.prod, x k < x' k) : ∀ k < c.outputs * c.dims.prod, (activate N θ b x).2 k < (activate N θ b' x').2 k := by
  intro k hk
  obtain ⟨H, hH, hy⟩ := built_run ok hN θ b x
  obtain ⟨H', hH', hy'⟩ := built_run ok hN θ b' x'
  have cover : ∀ a k : Nat, k < a * c.dims.prod → ∃ u i, InGrid c.dims u ∧ i < a ∧ k = a * rowMajor c.dims u + i := by
    intro a k hk
    have hc : 0 < a := Nat.pos_of_ne_zero (by rintro rfl; simp at hk)
    obtain ⟨y, hy, e⟩ := index_surj c.dims.reverse (k / a) (by rw [List.prod_reverse]; exact Nat.div_lt_of_lt_mul hk)
    refine ⟨y.reverse, k % a, ?_, Nat.mod_lt _ hc, ?_⟩
    · have := List.forall₂_reverse_iff.2 hy
      rwa [List.reverse_reverse] at this
    · rw [List.reverse_reverse] at e
      rw [e]
      exact (Nat.div_add_mod k a).symm
  obtain ⟨l, hl, hll⟩ := hlt
  obtain ⟨v, m, hv, hm, rfl⟩ := cover _ l hl
  obtain ⟨u, j, hu, hj, rfl⟩ := cover _ k hk
  rw [hy u hu j hj, hy' u hu j hj]
  have hwin : ∀ j < c.hsize, ∀ i < c.insize, 0 < (weights c θ).win j i := fun j _ i _ => hθ _ _
  have hwout : ∀ j i, 0 < (weights c θ).wout j i := fun j i => hθ _ _
  have hwh : ∀ d < c.dims.length, ∀ p, ∀ j < c.hsize, ∀ i < c.hsize, 0 < (weights c θ).wh d p j i := by
    intro d _ p j _ i _
    unfold weights
    simp only
    split <;> exact hθ _ _
  have hx : ∀ u, InGrid c.dims u → ∀ i < c.insize, inputAt c x u i ≤ inputAt c x' u i := by
    intro u hu i hi
    apply hle
    calc c.insize * rowMajor c.dims u + i < c.insize * (rowMajor c.dims u + 1) := by rw [Nat.mul_add]; omega
      _ ≤ _ := Nat.mul_le_mul_left _ (index_lt c.dims u hu)
  obtain ⟨s, hs, hb⟩ := exists_behind c.dims.length (fun d => v.getD d 0) (fun d => u.getD d 0)
  apply hg
  refine Finset.sum_lt_sum (fun s hs => Finset.sum_le_sum fun i hi => ?_) ⟨s, Finset.mem_range.2 hs, Finset.sum_lt_sum_of_nonempty ⟨0, Finset.mem_range.2 ok.hid⟩ fun i hi => ?_⟩
  · exact mul_le_mul_of_nonneg_left (swipes_mono c _ hf hwin hwh _ _ H H' hH hH' hx _ u hu s (Finset.mem_range.1 hs) le_rfl i (Finset.mem_range.1 hi)) (hwout j i).le
  · exact mul_lt_mul_of_pos_left (swipes_strict c ok _ hf hwin hwh _ _ H H' hH hH' hx v hv m hm hll s hs _ u hu hb le_rfl i (Finset.mem_range.1 hi)) (hwout j i)

example : StrictMono small.f ∧ StrictMono small.g := ⟨strictMono_id, strictMono_id⟩

/-- **C108, small dimensions.** A dimension of size 1 is refused with an AssertionError (the documented minimum is 2). -/
theorem C108_refused (c : Cfg) (h0 : c.dims ≠ []) (hz : 0 ∉ c.dims) (h1 : 1 ∈ c.dims) (hi : 0 < c.insize) (ho : 0 < c.outputs) :
    multiDimensionalRNN c = .error .assertion := by
  by_cases h : ∃ d ∈ c.dims, 1 < d
  · obtain ⟨g, hg, _, _⟩ := view_ok Node.inp c.insize c.insize c.dims h0 hz h (by omega)
    obtain ⟨g', hg', _, _⟩ := view_ok Node.out c.outputs c.outputs c.dims h0 hz h (by omega)
    simp only [multiDimensionalRNN, hg, hg']
    rw [if_pos (fun hall => by have := hall 1 h1; omega)]
  · have : viewOnFlatLayer (whole Node.inp (c.insize * c.dims.prod) (c.insize * c.dims.prod)) c.dims = .error .assertion := by
      unfold viewOnFlatLayer
      rw [if_neg (by rintro (h | h); exacts [h0 h, hz h]), if_pos h]
    simp only [multiDimensionalRNN, this]

example : ([1, 4] : List Nat) ≠ [] ∧ 0 ∉ [1, 4] ∧ 1 ∈ [1, 4] := by decide

end Verif.Props

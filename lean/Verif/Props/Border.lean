import Verif.Lemmas.Border
import Mathlib.Tactic.Positivity
/-
C152 Swiping networks with borders (BorderSwipingNetwork, CaptureGameNetwork).
-/
namespace Verif.Border
open Verif.Net Verif.Mesh Verif.Mesh.Spec Verif.Swiping Verif.Swiping.Spec Spec

/-- a network for `c`: built and sorted -/
def Built (c : Cfg) (simple : Bool) (name : Node → String) (N : Net Node Mother ℝ) : Prop := ∃ p, borderNetwork c simple = .ok p ∧ p.sort name = .ok N

theorem built_run {c : Cfg} (ok : Cfg.Ok c) {simple : Bool} {name : Node → String} {N : Net Node Mother ℝ} (hN : Built c simple name N) (θ : Mother → Vec ℝ) (b : Bufs Node Mother ℝ) (x : Vec ℝ) :
    ∃ H, BorderSwipes c (weights c θ) (borders c simple θ) (inputAt c x) H ∧
      ∀ u, InGrid c.dims u → ∀ j < c.outputs, (activate N θ b x).2 (c.outputs * rowMajor c.dims u + j) = result c (weights c θ) H u j := by
  obtain ⟨p, N', h1, h2, _, h3⟩ := runB c ok simple name
  obtain ⟨p', g1, g2⟩ := hN
  rw [h1] at g1
  cases g1
  rw [h2] at g2
  cases g2
  exact h3 θ b x

theorem output_eq {c : Cfg} (ok : Cfg.Ok c) {simple : Bool} {name : Node → String} {N : Net Node Mother ℝ} (hN : Built c simple name N) (θ : Mother → Vec ℝ) (b : Bufs Node Mother ℝ) (x : Vec ℝ)
    (H : List Nat → Nat → Nat → ℝ) (h : BorderSwipes c (weights c θ) (borders c simple θ) (inputAt c x) H) (u : List Nat) (hu : InGrid c.dims u) (j : Nat) (hj : j < c.outputs) :
    (activate N θ b x).2 (c.outputs * rowMajor c.dims u + j) = result c (weights c θ) H u j := by
  obtain ⟨H', hH, hy⟩ := built_run ok hN θ b x
  rw [hy u hu j hj]
  exact result_eq c _ _ _ H' H hH h u hu j

/-- a board of size 2 -/
def board (symdims symdirs : Bool) : Cfg := { dims := [2, 2], insize := 1, outputs := 1, hsize := 1, symmetricdimensions := symdims, symmetricdirections := symdirs, f := id, g := id }

theorem board_ok (a b : Bool) : Cfg.Ok (board a b) := ⟨by simp [board], by simp [board], by simp [board], by simp [board], by simp [board]⟩

/-- a network with three dimensions of size 3 -/
def cube : Cfg := { dims := [3, 3, 3], insize := 1, outputs := 1, hsize := 1, symmetricdimensions := true, symmetricdirections := true, f := id, g := id }

theorem cube_ok : Cfg.Ok cube := ⟨by simp [cube], by simp [cube], by simp [cube], by simp [cube], by simp [cube]⟩

/-- the equations can be read off for given states -/
theorem board_swipes (a b : Bool) (W : Weights) (B : Nat → List Nat → Nat → ℝ) (x : List Nat → Nat → ℝ) (H : List Nat → Nat → Nat → ℝ)
    (h : ∀ u ∈ [[0, 0], [0, 1], [1, 0], [1, 1]], ∀ s ∈ [0, 1, 2, 3], H u s 0 = W.win 0 0 * x u 0 +
      (((prev [2, 2] s 0 u).elim (B 0 u 0) fun v => W.wh 0 (decide (Up s 0)) 0 0 * H v s 0) + ((prev [2, 2] s 1 u).elim (B 1 u 0) fun v => W.wh 1 (decide (Up s 1)) 0 0 * H v s 0))) :
    BorderSwipes (board a b) W B x H := by
  intro u hu s hs j hj
  have hj : j = 0 := by simp [board] at hj; exact hj
  subst hj
  have hu' : u ∈ [[0, 0], [0, 1], [1, 0], [1, 1]] := by
    have : u ∈ Enum.iterCombinations [2, 2] := (iter_mem _ (by simp) u).2 hu
    have e : Enum.iterCombinations [2, 2] = [[0, 0], [0, 1], [1, 0], [1, 1]] := by decide
    rwa [e] at this
  have hs' : s ∈ [0, 1, 2, 3] := by simp [board] at hs ⊢; omega
  rw [h u hu' s hs']
  simp [board, Finset.sum_range_succ]

end Verif.Border

namespace Verif.Props
open Verif.Net Verif.Net.Spec Verif.Mesh Verif.Mesh.Spec Verif.Swiping Verif.Swiping.Spec Verif.Border Verif.Border.Spec

/-- **C152, construction.** For any number of dimensions, all at least 2, a swiping network with borders can be built, and its modules can be put into a feed-forward order. The same holds
for boards of the capture game of size 2 or more, without direct links and combined inputs. -/
theorem C152_build (c : Cfg) (ok : Cfg.Ok c) (name : Node → String) :
    (∀ simple, ∃ N, Border.Built c simple name N ∧ WF N) ∧
    (∀ size, 2 ≤ size → ∃ p N, captureGameNetwork c size false 0 = .ok p ∧ p.sort name = .ok N ∧ WF N ∧ Border.Built { c with dims := [size, size] } false name N) := by
  refine ⟨fun simple => ?_, fun size h => ?_⟩
  · obtain ⟨p, N, h1, h2, h3, _⟩ := runB c ok simple name
    exact ⟨N, ⟨p, h1, h2⟩, h3⟩
  · have ok' : Cfg.Ok { c with dims := [size, size] } := ⟨by simp, by intro d hd; simp at hd; omega, ok.ins, ok.outs, ok.hid⟩
    obtain ⟨p, N, h1, h2, h3, _⟩ := runB _ ok' false name
    refine ⟨p, N, ?_, h2, h3, ⟨p, h1, h2⟩⟩
    unfold captureGameNetwork
    rw [if_neg (by omega), h1]
    rfl

example : Cfg.Ok (board true true) := board_ok _ _

/-- **C152, output.** An activation computes what swiping with borders describes: there is exactly one assignment of states to the units and swipes that solves the equations, where a swipe that
enters the grid gets the weights of the border there instead of a previous state; and the output at every unit is computed from the states of all swipes there. The weights of a border are those
of its place: with symmetric dimensions, of all places equally far from the sides, and in dimension 0 if there is such a place. -/
theorem C152_output (c : Cfg) (ok : Cfg.Ok c) (simple : Bool) (name : Node → String) (N : Net Node Mother ℝ) (hN : Border.Built c simple name N) (θ : Mother → Vec ℝ) (b : Bufs Node Mother ℝ) (x : Vec ℝ) :
    (∃ H, BorderSwipes c (weights c θ) (borders c simple θ) (inputAt c x) H) ∧
    (∀ H H', BorderSwipes c (weights c θ) (borders c simple θ) (inputAt c x) H → BorderSwipes c (weights c θ) (borders c simple θ) (inputAt c x) H' →
      ∀ u, InGrid c.dims u → ∀ s < 2 ^ c.dims.length, ∀ j < c.hsize, H u s j = H' u s j) ∧
    (∀ H, BorderSwipes c (weights c θ) (borders c simple θ) (inputAt c x) H → ∀ u, InGrid c.dims u → ∀ j < c.outputs,
      (activate N θ b x).2 (c.outputs * rowMajor c.dims u + j) = result c (weights c θ) H u j) := by
  obtain ⟨H, hH, hy⟩ := built_run ok hN θ b x
  exact ⟨⟨H, hH⟩, fun H H' h h' u hu s hs j hj => unique c _ _ _ H H' h h' _ u hu s hs le_rfl j hj, fun H' h' u hu j hj => output_eq ok hN θ b x H' h' u hu j hj⟩

example : depth [5, 5] 0 [4, 3] = [1] ∧ depth [5, 5] 1 [1, 0] = [1] ∧ Shared [5, 5] [1] := by
  refine ⟨by decide, by decide, ?_⟩
  simp [Shared]

/-- **C152, mirror images.** With symmetric directions, and symmetric dimensions or simple borders, a network treats mirror images alike, borders included. -/
theorem C152_mirror_partial (c : Cfg) (ok : Cfg.Ok c) (simple : Bool) (sym : c.symmetricdirections = true) (hs : simple = true ∨ c.symmetricdimensions = true) (name : Node → String)
    (N : Net Node Mother ℝ) (hN : Border.Built c simple name N) (θ : Mother → Vec ℝ) (b b' : Bufs Node Mother ℝ) (d : Nat) (hd : d < c.dims.length) (x x' : Vec ℝ)
    (hx : ∀ u, InGrid c.dims u → ∀ i < c.insize, x' (c.insize * rowMajor c.dims u + i) = x (c.insize * rowMajor c.dims (mirror c.dims d u) + i)) :
    ∀ u, InGrid c.dims u → ∀ j < c.outputs,
      (activate N θ b' x').2 (c.outputs * rowMajor c.dims u + j) = (activate N θ b x).2 (c.outputs * rowMajor c.dims (mirror c.dims d u) + j) := by
  intro u hu j hj
  obtain ⟨H, hH, hy⟩ := built_run ok hN θ b x
  have hW : ∀ d j i, (weights c θ).wh d true j i = (weights c θ).wh d false j i := fun d j i => by simp [weights, sym]
  have hB : ∀ e < c.dims.length, ∀ u, InGrid c.dims u → ∀ j, borders c simple θ e (mirror c.dims d u) j = borders c simple θ e u j := by
    intro e _ u hu j
    unfold borders container
    rcases hs with rfl | hs
    · rfl
    · rw [depth_mirror c.dims u d e hu, if_pos hs, if_pos hs]
  rw [hy _ (mirror_unit c.dims d u hu hd) j hj, output_eq ok hN θ b' x' _ (borders_mirror c _ hW _ d hd hB _ H hH _ hx) u hu j hj]
  unfold result
  congr 1
  exact sum_flip _ d hd (fun s => ∑ i ∈ Finset.range c.hsize, (weights c θ).wout j i * H (mirror c.dims d u) s i)

open Classical in
/-- **C152, transposition.** On square boards, those of the capture game, a network with symmetric dimensions treats rows and columns alike, borders included. With `C152_mirror_partial`, all eight
symmetries of the board are respected. -/
theorem C152_transpose (c : Cfg) (ok : Cfg.Ok c) (simple : Bool) (sym : c.symmetricdimensions = true) (size : Nat) (hdims : c.dims = [size, size]) (name : Node → String)
    (N : Net Node Mother ℝ) (hN : Border.Built c simple name N) (θ : Mother → Vec ℝ) (b b' : Bufs Node Mother ℝ) (x x' : Vec ℝ)
    (hx : ∀ u, InGrid c.dims u → ∀ i < c.insize, x' (c.insize * rowMajor c.dims u + i) = x (c.insize * rowMajor c.dims (exchange 0 1 u) + i)) :
    ∀ u, InGrid c.dims u → ∀ j < c.outputs,
      (activate N θ b' x').2 (c.outputs * rowMajor c.dims u + j) = (activate N θ b x).2 (c.outputs * rowMajor c.dims (exchange 0 1 u) + j) := by
  intro u hu j hj
  obtain ⟨H, hH, hy⟩ := built_run ok hN θ b x
  have h0 : 0 < c.dims.length := by rw [hdims]; simp
  have h1 : 1 < c.dims.length := by rw [hdims]; simp
  have h01 : c.dims.getD 0 0 = c.dims.getD 1 0 := by rw [hdims]; rfl
  have hW : ∀ d e p j i, (weights c θ).wh d p j i = (weights c θ).wh e p j i := by
    have : ∀ d : Nat, (if 0 < d ∧ c.symmetricdimensions = true then 0 else d) = 0 := by
      intro d
      by_cases h : 0 < d
      · rw [if_pos ⟨h, sym⟩]
      · rw [if_neg (fun h' => h h'.1)]; omega
    intro d e p j i
    simp only [weights, this]
  have hB : ∀ e < c.dims.length, ∀ u, InGrid c.dims u → ∀ j, borders c simple θ (Equiv.swap 0 1 e) (exchange 0 1 u) j = borders c simple θ e u j := by
    intro e he u hu j
    cases simple with
    | true => rfl
    | false =>
      rw [hdims] at he hu
      obtain ⟨p, q, rfl⟩ : ∃ p q, u = [p, q] := by
        have := ((inGrid_iff _ _).1 hu).1
        match u, this with
        | [p, q], _ => exact ⟨p, q, rfl⟩
      have hp : p < size ∧ q < size := by
        unfold InGrid at hu
        simpa using hu
      have hsh : ∀ k, 2 * k < size → Shared [size, size] [k] := by
        intro k hk
        unfold Shared
        simp only [List.eraseIdx_cons_zero, List.forall₂_cons, List.Forall₂.nil, and_true]
        omega
      have hc : ∀ d u, borders c false θ d u j = θ (.bord (if Shared c.dims (depth c.dims d u) then 0 else d) (depth c.dims d u)) j := by
        intro d u
        unfold borders container
        simp only [Bool.false_eq_true, if_false, sym, if_true]
      have hS : ∀ k, k < size → Shared [size, size] [min (size - 1 - k) k] := fun k hk => hsh _ (by omega)
      rw [hc, hc, hdims]
      have he : e = 0 ∨ e = 1 := by simp at he; omega
      rcases he with rfl | rfl
      · have e1 : depth [size, size] (Equiv.swap 0 1 0) (exchange 0 1 [p, q]) = [min (size - 1 - q) q] := by simp [depth, exchange]
        have e2 : depth [size, size] 0 [p, q] = [min (size - 1 - q) q] := by simp [depth]
        rw [e1, e2, if_pos (hS q hp.2), if_pos (hS q hp.2)]
      · have e1 : depth [size, size] (Equiv.swap 0 1 1) (exchange 0 1 [p, q]) = [min (size - 1 - p) p] := by simp [depth, exchange]
        have e2 : depth [size, size] 1 [p, q] = [min (size - 1 - p) p] := by simp [depth]
        rw [e1, e2, if_pos (hS p hp.1), if_pos (hS p hp.1)]
  rw [hy _ (exchange_unit c.dims 0 1 u hu h0 h1 h01) j hj,
    output_eq ok hN θ b' x' _ (borders_exchange c _ hW _ 0 1 h0 h1 h01 hB _ H hH _ hx) u hu j hj]
  unfold result
  congr 1
  exact sum_swapBits _ 0 1 h0 h1 (fun s => ∑ i ∈ Finset.range c.hsize, (weights c θ).wout j i * H (exchange 0 1 u) s i)

/-- **C152, violated.** Without symmetric dimensions (the default of the class is symmetric), mirror images are not treated alike although the directions are symmetric: on a board of size 2, with all inputs
the same, the outputs differ between two units that are mirror images of each other. -/
theorem C152_negation_mirror : ∃ θ : Mother → Vec ℝ, ∀ name N, Border.Built (board false true) false name N → ∀ b,
    (activate N θ b fun _ => 0).2 0 = 2 ∧ (activate N θ b fun _ => 0).2 1 = 0 := by
  refine ⟨fun m _ => if m = .outconn ∨ m = .bord 0 [0] then 1 else 0, fun name N hN b => ?_⟩
  have hH : BorderSwipes (board false true) (weights (board false true) fun m _ => if m = .outconn ∨ m = .bord 0 [0] then 1 else 0)
      (borders (board false true) false fun m _ => if m = .outconn ∨ m = .bord 0 [0] then 1 else 0) (inputAt (board false true) fun _ => 0)
      (fun u s _ => if (u = [0, 0] ∧ s % 2 = 0) ∨ (u = [1, 0] ∧ s % 2 = 1) then 1 else 0) := by
    apply board_swipes
    intro u hu s hs
    have hB : ∀ d u, borders (board false true) false (fun m _ => if m = .outconn ∨ m = .bord 0 [0] then 1 else 0) d u 0 = if d = 0 ∧ u.eraseIdx d = [0] then 1 else 0 := by
      intro d u
      simp [borders, container, board]
    simp only [hB]
    simp only [List.mem_cons, List.not_mem_nil, or_false] at hu hs
    rcases hu with rfl | rfl | rfl | rfl <;> rcases hs with rfl | rfl | rfl | rfl <;> simp [prev, Up, weights, board, inputAt]
  have h0 := output_eq (board_ok _ _) hN _ b (fun _ => 0) _ hH [0, 0] (by simp [InGrid, board]) 0 (by simp [board])
  have h1 := output_eq (board_ok _ _) hN _ b (fun _ => 0) _ hH [0, 1] (by simp [InGrid, board]) 0 (by simp [board])
  have e0 : (board false true).outputs * rowMajor (board false true).dims [0, 0] + 0 = 0 := by decide
  have e1 : (board false true).outputs * rowMajor (board false true).dims [0, 1] + 0 = 1 := by decide
  rw [e0] at h0
  rw [e1] at h1
  refine ⟨h0.trans ?_, h1.trans ?_⟩
  · simp only [result, weights, board, Finset.sum_range_succ, Finset.sum_range_zero, List.length_cons, List.length_nil, id]
    norm_num
    have : {x ∈ Finset.range 4 | x % 2 = 0}.card = 2 := by decide
    rw [this]
    norm_num
  · simp [result, weights, board]

example (name : Node → String) : ∃ N, Border.Built (board false true) false name N := by
  obtain ⟨N, h, _⟩ := (C152_build _ (board_ok false true) name).1 false
  exact ⟨N, h⟩

/-- **C152, violated.** With three dimensions of the same size the dimensions are not treated alike although they are symmetric: the weights of the borders depend on the order of the remaining coordinates.
In a network of size 3, with all inputs the same, the outputs differ between two units that differ in the order of the first two coordinates. -/
theorem C152_negation_transpose : ∃ θ : Mother → Vec ℝ, ∀ name N, Border.Built cube false name N → ∀ b,
    (activate N θ b fun _ => 0).2 3 = 4 ∧ (activate N θ b fun _ => 0).2 9 = 0 ∧ rowMajor cube.dims [0, 1, 0] = 3 ∧ rowMajor cube.dims (exchange 0 1 [0, 1, 0]) = 9 := by
  classical
  refine ⟨fun m _ => if m = .outconn ∨ m = .bord 0 [0, 1] then 1 else 0, fun name N hN b => ?_⟩
  set θ : Mother → Vec ℝ := fun m _ => if m = .outconn ∨ m = .bord 0 [0, 1] then 1 else 0 with hθ
  have hH : BorderSwipes cube (weights cube θ) (borders cube false θ) (inputAt cube fun _ => 0)
      (fun u s j => ∑ d ∈ Finset.range 3, if prev [3, 3, 3] s d u = none then borders cube false θ d u j else 0) := by
    intro u hu s hs j hj
    have hwh : ∀ d p j i, (weights cube θ).wh d p j i = 0 := by
      intro d p j i
      simp [weights, cube, hθ]
    simp only [hwh, zero_mul, Finset.sum_const_zero, inputAt, mul_zero, zero_add]
    have hid : ∀ y : ℝ, cube.f y = y := fun y => rfl
    have hlen : cube.dims.length = 3 := rfl
    rw [hid, hlen]
    refine Finset.sum_congr rfl fun d _ => ?_
    cases h : prev [3, 3, 3] s d u with
    | none =>
      have : prev cube.dims s d u = none := h
      rw [this]
      rfl
    | some v =>
      have : prev cube.dims s d u = some v := h
      rw [this]
      rfl
  have h0 := output_eq cube_ok hN θ b (fun _ => 0) _ hH [0, 1, 0] (by simp [InGrid, cube]) 0 (by simp [cube])
  have h1 := output_eq cube_ok hN θ b (fun _ => 0) _ hH [1, 0, 0] (by simp [InGrid, cube]) 0 (by simp [cube])
  have e0 : cube.outputs * rowMajor cube.dims [0, 1, 0] + 0 = 3 := by decide
  have e1 : cube.outputs * rowMajor cube.dims [1, 0, 0] + 0 = 9 := by decide
  rw [e0] at h0
  rw [e1] at h1
  have hw : (weights cube θ).wout 0 0 = 1 := by simp [weights, hθ]
  have hB : ∀ d u, borders cube false θ d u 0 = if Shared cube.dims (depth cube.dims d u) ∧ depth cube.dims d u = [0, 1] ∨ d = 0 ∧ depth cube.dims d u = [0, 1] then 1 else 0 := by
    intro d u
    unfold borders container
    simp only [hθ, cube, Bool.false_eq_true, if_false, if_true, reduceCtorEq, false_or, Mother.bord.injEq]
    congr 1
    by_cases h : Shared [3, 3, 3] (depth [3, 3, 3] d u) <;> simp [h]
  have hS : Shared cube.dims [0, 1] := by simp [Shared, cube]
  refine ⟨h0.trans ?_, h1.trans ?_, by decide, by decide⟩
  · have d0 : depth cube.dims 0 [0, 1, 0] = [1, 0] := by decide
    have d1 : depth cube.dims 1 [0, 1, 0] = [0, 0] := by decide
    have d2 : depth cube.dims 2 [0, 1, 0] = [0, 1] := by decide
    unfold result
    have : ∀ s, (∑ i ∈ Finset.range cube.hsize, (weights cube θ).wout 0 i * ∑ d ∈ Finset.range 3, if prev [3, 3, 3] s d [0, 1, 0] = none then borders cube false θ d [0, 1, 0] i else 0) =
        if prev [3, 3, 3] s 2 [0, 1, 0] = none then 1 else 0 := by
      intro s
      have : cube.hsize = 1 := rfl
      rw [this, Finset.sum_range_one, hw]
      simp [Finset.sum_range_succ, hB, d0, d1, d2, hS]
    simp only [this]
    have hid : ∀ y : ℝ, cube.g y = y := fun y => rfl
    have hlen : 2 ^ cube.dims.length = 8 := rfl
    rw [hid, hlen]
    have hc : {s ∈ Finset.range 8 | prev [3, 3, 3] s 2 [0, 1, 0] = none}.card = 4 := by decide
    rw [Finset.sum_boole, hc]
    norm_num
  · have d0 : depth cube.dims 0 [1, 0, 0] = [0, 0] := by decide
    have d1 : depth cube.dims 1 [1, 0, 0] = [1, 0] := by decide
    have d2 : depth cube.dims 2 [1, 0, 0] = [1, 0] := by decide
    unfold result
    have : ∀ s, (∑ i ∈ Finset.range cube.hsize, (weights cube θ).wout 0 i * ∑ d ∈ Finset.range 3, if prev [3, 3, 3] s d [1, 0, 0] = none then borders cube false θ d [1, 0, 0] i else 0) = 0 := by
      intro s
      have : cube.hsize = 1 := rfl
      rw [this, Finset.sum_range_one, hw]
      simp [Finset.sum_range_succ, hB, d0, d1, d2]
    simp only [this]
    have hid : ∀ y : ℝ, cube.g y = y := fun y => rfl
    rw [hid, Finset.sum_const_zero]

/-- **C152, violated.** "BorderSwipingNetworks are currently limited to direction-symmetric weights", and a NotImplementedError says so. But it is raised only for subclasses that change the attribute:
an argument `symmetricdirections = False` is not noticed, a network is built, and it has different weights for the two directions. On a board of size 2 with equal inputs the outputs at
two opposite corners differ. -/
theorem C152_negation_directions :
    (∀ c simple, borderNetwork c simple false = .error .notImplemented) ∧
    (∀ c, Cfg.Ok c → c.symmetricdirections = false → ∀ simple, ∃ p, borderNetwork c simple = .ok p) ∧
    ∃ θ : Mother → Vec ℝ, ∀ name N, Border.Built (board true false) false name N → ∀ b, (activate N θ b fun _ => 1).2 0 = 4 ∧ (activate N θ b fun _ => 1).2 3 = 10 := by
  refine ⟨fun c simple => rfl, fun c ok _ simple => ?_, ?_⟩
  · obtain ⟨p, N, h1, _⟩ := runB c ok simple (fun _ => "")
    exact ⟨p, h1⟩
  · refine ⟨fun m _ => if m = .outconn ∨ m = .inconn ∨ m = .hd 0 true then 1 else 0, fun name N hN b => ?_⟩
    have hH : BorderSwipes (board true false) (weights (board true false) fun m _ => if m = .outconn ∨ m = .inconn ∨ m = .hd 0 true then 1 else 0)
        (borders (board true false) false fun m _ => if m = .outconn ∨ m = .inconn ∨ m = .hd 0 true then 1 else 0) (inputAt (board true false) fun _ => 1)
        (fun u s _ => if s = 0 then (if u = [0, 0] then 1 else if u = [1, 1] then 5 else 2) else if s = 1 then (if u.getD 1 0 = 1 then 2 else 1)
          else if s = 2 then (if u.getD 0 0 = 1 then 2 else 1) else 1) := by
      apply board_swipes
      intro u hu s hs
      have hB : ∀ d u, borders (board true false) false (fun m _ => if m = .outconn ∨ m = .inconn ∨ m = .hd 0 true then 1 else 0) d u 0 = 0 := by
        intro d u
        simp [borders, container, board]
      simp only [hB]
      simp only [List.mem_cons, List.not_mem_nil, or_false] at hu hs
      rcases hu with rfl | rfl | rfl | rfl <;> rcases hs with rfl | rfl | rfl | rfl <;> simp [prev, Up, weights, board, inputAt] <;> norm_num
    have h0 := output_eq (board_ok _ _) hN _ b (fun _ => 1) _ hH [0, 0] (by simp [InGrid, board]) 0 (by simp [board])
    have h1 := output_eq (board_ok _ _) hN _ b (fun _ => 1) _ hH [1, 1] (by simp [InGrid, board]) 0 (by simp [board])
    have e0 : (board true false).outputs * rowMajor (board true false).dims [0, 0] + 0 = 0 := by decide
    have e1 : (board true false).outputs * rowMajor (board true false).dims [1, 1] + 0 = 3 := by decide
    rw [e0] at h0
    rw [e1] at h1
    refine ⟨h0.trans ?_, h1.trans ?_⟩
    · simp only [result, weights, board, Finset.sum_range_succ, Finset.sum_range_zero, List.length_cons, List.length_nil, id]
      norm_num [Finset.sum_range_succ]
    · simp only [result, weights, board, Finset.sum_range_succ, Finset.sum_range_zero, List.length_cons, List.length_nil, id]
      norm_num [Finset.sum_range_succ]

/-- **C152, violated.** Two of the documented options of CaptureGameNetwork cannot be used: `directlink = True` ends with a TypeError and `combinputs > 0` with an AttributeError, for all sizes. -/
theorem C152_negation_options (c : Cfg) (ok : Cfg.Ok c) (size : Nat) (h : 2 ≤ size) :
    (∀ n, captureGameNetwork c size true n = .error .typeError) ∧ (∀ n, 0 < n → captureGameNetwork c size false n = .error .attributeError) := by
  have ok' : Cfg.Ok { c with dims := [size, size] } := ⟨by simp, by intro d hd; simp at hd; omega, ok.ins, ok.outs, ok.hid⟩
  obtain ⟨p, N, h1, h2, h3, _⟩ := runB _ ok' false (fun _ => "")
  refine ⟨fun n => ?_, fun n hn => ?_⟩
  · unfold captureGameNetwork
    rw [if_neg (by omega), h1]
    rfl
  · unfold captureGameNetwork
    rw [if_neg (by omega), h1]
    simp [hn]

/-- **C152, extrapolation.** Weights of new borders lie between the smallest and the largest of the existing ones they are made from; they are their average weighted with the reciprocals of the distances. -/
theorem C152_extrapolate (closest : List (List Nat × Nat)) (hpos : ∀ q ∈ closest, 0 < q.2) (hne : closest ≠ []) (params : List Nat → Nat → ℝ) :
    ∃ w : List Nat × Nat → ℝ, (∀ q ∈ closest, 0 < w q) ∧ (closest.map w).sum = 1 ∧ (∀ q ∈ closest, ∀ r ∈ closest, w q * q.2 = w r * r.2) ∧
      ∃ f, extrapolate closest params = some f ∧ (∀ j, f j = (closest.map fun q => w q * params q.1 j).sum) ∧
        ∀ j lo hi, (∀ q ∈ closest, lo ≤ params q.1 j ∧ params q.1 j ≤ hi) → lo ≤ f j ∧ f j ≤ hi := by
  have hS : ∀ l : List (List Nat × Nat), (∀ q ∈ l, 0 < q.2) → l ≠ [] → 0 < (l.map fun q => 1 / (q.2 : ℝ)).sum := by
    intro l hl hn
    cases l with
    | nil => exact absurd rfl hn
    | cons a l =>
      rw [List.map_cons, List.sum_cons]
      have h1 : (0 : ℝ) < 1 / a.2 := one_div_pos.2 (by exact_mod_cast hl a (by simp))
      have h2 : 0 ≤ (l.map fun q => 1 / (q.2 : ℝ)).sum := List.sum_nonneg (by
        intro y hy
        obtain ⟨q, _, rfl⟩ := List.mem_map.1 hy
        positivity)
      linarith
  set S := (closest.map fun q => 1 / (q.2 : ℝ)).sum with hSdef
  have hSpos : 0 < S := hS closest hpos hne
  have hmul : ∀ (l : List (List Nat × Nat)) (F : List Nat × Nat → ℝ) (k : ℝ), (l.map fun q => F q / k).sum = (l.map F).sum / k := by
    intro l F k
    induction l with
    | nil => simp
    | cons a l ih => rw [List.map_cons, List.map_cons, List.sum_cons, List.sum_cons, ih, add_div]
  have hw1 : (closest.map fun q => 1 / (q.2 : ℝ) / S).sum = 1 := by
    rw [hmul closest (fun q => 1 / (q.2 : ℝ)) S]
    exact div_self hSpos.ne'
  have hwpos : ∀ q ∈ closest, 0 < 1 / (q.2 : ℝ) / S := fun q hq => div_pos (one_div_pos.2 (by exact_mod_cast hpos q hq)) hSpos
  refine ⟨fun q => 1 / (q.2 : ℝ) / S, hwpos, hw1, ?_, _, if_neg hne, ?_, ?_⟩
  · intro q hq r hr
    have hq0 : (q.2 : ℝ) ≠ 0 := by exact_mod_cast (hpos q hq).ne'
    have hr0 : (r.2 : ℝ) ≠ 0 := by exact_mod_cast (hpos r hr).ne'
    field_simp
  · intro j
    rw [← hmul]
    congr 1
    refine List.map_congr_left fun q _ => ?_
    ring
  · intro j lo hi hb
    have e : (closest.map fun q => params q.1 j / (q.2 : ℝ)).sum / S = (closest.map fun q => 1 / (q.2 : ℝ) / S * params q.1 j).sum := by
      rw [← hmul]
      congr 1
      refine List.map_congr_left fun q _ => ?_
      ring
    have hlin : ∀ k : ℝ, (closest.map fun q => 1 / (q.2 : ℝ) / S * k).sum = k := by
      intro k
      have : ∀ l : List (List Nat × Nat), (l.map fun q => 1 / (q.2 : ℝ) / S * k).sum = (l.map fun q => 1 / (q.2 : ℝ) / S).sum * k := by
        intro l
        induction l with
        | nil => simp
        | cons a l ih => rw [List.map_cons, List.map_cons, List.sum_cons, List.sum_cons, ih, add_mul]
      rw [this, hw1, one_mul]
    rw [← hSdef, e]
    constructor
    · calc lo = (closest.map fun q => 1 / (q.2 : ℝ) / S * lo).sum := (hlin lo).symm
        _ ≤ _ := List.sum_le_sum fun q hq => mul_le_mul_of_nonneg_left (hb q hq).1 (hwpos q hq).le
    · calc _ ≤ (closest.map fun q => 1 / (q.2 : ℝ) / S * hi).sum := List.sum_le_sum fun q hq => mul_le_mul_of_nonneg_left (hb q hq).2 (hwpos q hq).le
        _ = hi := hlin hi

example : ∀ q ∈ [([1, 0], 1), ([0, 0], 2)], 0 < q.2 := by decide

end Verif.Props

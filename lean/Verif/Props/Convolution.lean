import Verif.Lemmas.ConvBoard
/-
C110 Convolutional networks, C111 convolutional networks for boards.
-/
namespace Verif.Conv
open Verif.Net Verif.Net.Spec Verif.Mesh Verif.Mesh.Spec Spec

def rank : Node → Nat
  | .inp => 0
  | .bias => 0
  | .pad => 1
  | .hid => 2
  | .out => 3

/-- the network: built and sorted -/
def Built (p : Except MErr (Plan Node Mother)) (name : Node → String) (N : Net Node Mother ℝ) : Prop := ∃ q, p = .ok q ∧ q.sort name = .ok N

theorem run (f g : ℝ → ℝ) (channels n w maps D : Nat) (hD : n + 1 = w + D) (h2 : 2 ≤ D) (hw : 0 < w) (hc : 0 < channels) (hm : 0 < maps) (name : Node → String) :
    ∃ p N, simpleConv f g channels n w maps = .ok p ∧ p.sort name = .ok N ∧ WF N ∧ ∀ (θ : Mother → Vec ℝ) (b : Bufs Node Mother ℝ) (x : Vec ℝ),
      ∀ i < D, ∀ j < D, (activate N θ b x).2 (i * D + j) = output f g channels w maps (kernel w channels θ) (θ .outc) (square n channels x) i j := by
  have hb : simpleConv f g channels n w maps = .ok { modules := [.inp, .hid, .out], mod := module f g n w maps (channels * n * n) 0, links := convList channels n w maps D .inp, inmods := [.inp], outmods := [.out] } := by
    unfold simpleConv
    rw [build_ok channels n w maps D hD h2 hw hc hm .inp _ rfl]
  have hgood : Plan.Good { modules := [.inp, .hid, .out], mod := module f g n w maps (channels * n * n) 0, links := convList channels n w maps D .inp, inmods := [.inp], outmods := [.out] } rank := by
    have key := conv_fits f g channels n w maps D (channels * n * n) 0 hD .inp rank (by decide) rfl
    exact
      { nodup := by simp, insNodup := by simp, outsNodup := by simp
        ins := by simp, outs := by simp
        src := fun a ha => by rcases (key a ha).1 with h | h <;> rw [h] <;> simp
        dst := fun a ha => by rcases (key a ha).2.1 with h | h <;> rw [h] <;> simp
        rank := fun a ha => (key a ha).2.2.1, inSlice := fun a ha => (key a ha).2.2.2.1, outSlice := fun a ha => (key a ha).2.2.2.2 }
  obtain ⟨N, hN, wf, hrun⟩ := plan_run _ rank hgood name
  refine ⟨_, N, hb, hN, wf, fun θ b x i hi j hj => ?_⟩
  obtain ⟨inb, outb, h1, h2', h3⟩ := hrun θ b x
  have hin : ∀ k, k < channels * n * n → outb .inp k = x k := by
    intro k hk
    rw [h2' .inp (by simp)]
    have e : inb .inp k = x k := by
      rw [h1 .inp (by simp) k, conv_other _ _ _ _ _ _ _ _ _ _ (by simp) (by simp)]
      have e1 : (module f g n w maps (channels * n * n) 0 Node.inp).indim = channels * n * n := rfl
      simp only [share, if_true, tr, e1, hk, add_zero]
    show tr (channels * n * n) (inb .inp) k = x k
    simp only [tr, hk, if_true, e]
  have hcell := cell_lt D i j hi hj
  have hhid : ∀ m < maps, outb .hid ((i * D + j) * maps + m) = feature f channels w (kernel w channels θ) (square n channels x) i j m := by
    intro m hm'
    have hlt : (i * D + j) * maps + m < D * D * maps := by
      calc (i * D + j) * maps + m < (i * D + j + 1) * maps := by rw [Nat.add_mul (i * D + j) 1]; omega
        _ ≤ _ := Nat.mul_le_mul_right _ hcell
    rw [h2' .hid (by simp)]
    simp only [mod_hid f g n w maps D _ _ hD]
    show tr (D * D * maps) (fun q => f (inb .hid q)) _ = _
    simp only [tr, hlt, if_true, feature]
    congr 1
    rw [h1 .hid (by simp), conv_hid _ _ _ _ _ _ _ _ _ _ _ hi hj hm']
    have e0 : share (fun m => (module f g n w maps (channels * n * n) 0 m).indim) [Node.inp] x Node.hid ((i * D + j) * maps + m) = 0 := by simp [share]
    rw [e0, zero_add]
    refine Finset.sum_congr rfl fun k hk => Finset.sum_congr rfl fun l hl => Finset.sum_congr rfl fun c hc' => ?_
    congr 1
    unfold square
    apply hin
    have hk := Finset.mem_range.1 hk
    have hl := Finset.mem_range.1 hl
    have hc' := Finset.mem_range.1 hc'
    have : n * (i + k) + (j + l) < n * n := by
      calc n * (i + k) + (j + l) < n * (i + k + 1) := by rw [Nat.mul_add n (i + k)]; omega
        _ ≤ n * n := Nat.mul_le_mul_left _ (by omega)
    calc (n * (i + k) + (j + l)) * channels + c < (n * (i + k) + (j + l) + 1) * channels := by rw [Nat.add_mul _ 1]; omega
      _ ≤ n * n * channels := Nat.mul_le_mul_right _ this
      _ = channels * n * n := by ring
  rw [h3]
  have hc : concat (fun m => (module f g n w maps (channels * n * n) 0 m).outdim) [Node.out] outb (i * D + j) = outb .out (i * D + j) :=
    if_pos (by show i * D + j < (module f g n w maps (channels * n * n) 0 Node.out).outdim; rw [mod_out f g n w maps D _ _ hD]; exact hcell)
  refine hc.trans ?_
  rw [h2' .out (by simp)]
  simp only [mod_out f g n w maps D _ _ hD]
  show tr (D * D) (fun q => g (inb .out q)) _ = _
  simp only [tr, hcell, if_true, output]
  congr 1
  rw [h1 .out (by simp), conv_out _ _ _ _ _ _ _ _ _ _ hi hj]
  have e0 : share (fun m => (module f g n w maps (channels * n * n) 0 m).indim) [Node.inp] x Node.out (i * D + j) = 0 := by simp [share]
  rw [e0, zero_add]
  exact Finset.sum_congr rfl fun m hm' => by rw [hhid m (Finset.mem_range.1 hm')]

theorem built_run {f g : ℝ → ℝ} {channels n w maps D : Nat} (hD : n + 1 = w + D) (h2 : 2 ≤ D) (hw : 0 < w) (hc : 0 < channels) (hm : 0 < maps) {name : Node → String}
    {N : Net Node Mother ℝ} (hN : Built (simpleConv f g channels n w maps) name N) (θ : Mother → Vec ℝ) (b : Bufs Node Mother ℝ) (x : Vec ℝ) :
    ∀ i < D, ∀ j < D, (activate N θ b x).2 (i * D + j) = output f g channels w maps (kernel w channels θ) (θ .outc) (square n channels x) i j := by
  obtain ⟨p, N', h1, h2', _, h3⟩ := run f g channels n w maps D hD h2 hw hc hm name
  obtain ⟨p', g1, g2⟩ := hN
  rw [h1] at g1; cases g1
  rw [h2'] at g2; cases g2
  exact h3 θ b x

/-! ### boards -/

theorem board_run (f g : ℝ → ℝ) (B w maps : Nat) (hB : 2 ≤ B) (hw : 2 ≤ w) (hm : 0 < maps) (name : Node → String) :
    ∃ p N, boardNetwork f g B w maps = .ok p ∧ p.sort name = .ok N ∧ WF N ∧ ∀ (θ : Mother → Vec ℝ) (b : Bufs Node Mother ℝ) (x : Vec ℝ),
      ∀ i < B, ∀ j < B, (activate N θ b x).2 (i * B + j) =
        output f g 2 w maps (kernel w 2 θ) (θ .outc) (padded B (w / 2) (θ .padding) (square B 2 x)) i j := by
  have hD := size_eq B w hw
  obtain ⟨ps, hps, -, -⟩ := paddable_ok B w hw
  have hb : boardNetwork f g B w maps = .ok { modules := [.inp, .pad, .bias, .hid, .out]
                                              mod := module f g (paddedSize B w) w maps (2 * B * B) (2 * paddedSize B w * paddedSize B w)
                                              links := padLinks B w ps (2 * paddedSize B w * paddedSize B w) ++ convList 2 (paddedSize B w) w maps B .pad
                                              inmods := [.inp], outmods := [.out] } := by
    unfold boardNetwork
    simp only [hps, rows_ok B w hB hw, build_ok 2 (paddedSize B w) w maps B hD hB (by omega) (by omega) hm .pad _ rfl, padLinks]
  have hpf := pad_fits f g B w maps hw ps hps (2 * paddedSize B w * paddedSize B w)
  have hpin := pad_in B w hw ps hps (2 * paddedSize B w * paddedSize B w)
  generalize hn : paddedSize B w = n at *
  generalize hL : padLinks B w ps (2 * n * n) = L at *
  have hgood : Plan.Good { modules := [.inp, .pad, .bias, .hid, .out], mod := module f g n w maps (2 * B * B) (2 * n * n)
                           links := L ++ convList 2 n w maps B .pad, inmods := [.inp], outmods := [.out] } rank := by
    have key := conv_fits f g 2 n w maps B (2 * B * B) (2 * n * n) hD .pad rank (by decide) rfl
    exact
      { nodup := by simp, insNodup := by simp, outsNodup := by simp
        ins := by simp, outs := by simp
        src := fun a ha => by
          rcases List.mem_append.1 ha with ha | ha
          · rcases (hpf a ha).1 with h | h <;> rw [h] <;> simp
          · rcases (key a ha).1 with h | h <;> rw [h] <;> simp
        dst := fun a ha => by
          rcases List.mem_append.1 ha with ha | ha
          · rw [(hpf a ha).2.1]; simp
          · rcases (key a ha).2.1 with h | h <;> rw [h] <;> simp
        rank := fun a ha => by
          rcases List.mem_append.1 ha with ha | ha
          · rw [(hpf a ha).2.1]
            rcases (hpf a ha).1 with h | h <;> rw [h] <;> decide
          · exact (key a ha).2.2.1
        inSlice := fun a ha => by
          rcases List.mem_append.1 ha with ha | ha
          · exact (hpf a ha).2.2.1
          · exact (key a ha).2.2.2.1
        outSlice := fun a ha => by
          rcases List.mem_append.1 ha with ha | ha
          · exact (hpf a ha).2.2.2
          · exact (key a ha).2.2.2.2 }
  obtain ⟨N, hN, wf, hrun⟩ := plan_run _ rank hgood name
  refine ⟨_, N, hb, hN, wf, fun θ b x i hi j hj => ?_⟩
  obtain ⟨inb, outb, h1, h2', h3⟩ := hrun θ b x
  have hL0 : ∀ (v : Node) (q : Nat), v ≠ .pad → (L.map (fun a => if a.2.outmod = v then signal θ (outb a.1) a.2 q else 0)).sum = 0 := by
    intro v q hv
    refine sum_zero _ _ fun a ha => if_neg ?_
    rw [(hpf a ha).2.1]
    exact Ne.symm hv
  have hin : ∀ k, k < 2 * B * B → outb .inp k = x k := by
    intro k hk
    rw [h2' .inp (by simp)]
    have e : inb .inp k = x k := by
      rw [h1 .inp (by simp) k, List.map_append, List.sum_append, hL0 _ _ (by simp), conv_other _ _ _ _ _ _ _ _ _ _ (by simp) (by simp)]
      have e1 : (module f g n w maps (2 * B * B) (2 * n * n) Node.inp).indim = 2 * B * B := rfl
      simp only [share, if_true, tr, e1, hk, add_zero]
    show tr (2 * B * B) (inb .inp) k = x k
    simp only [tr, hk, if_true, e]
  have hbias : outb .bias 0 = 1 := by
    rw [h2' .bias (by simp)]
    rfl
  have hpad : ∀ r < n, ∀ s < n, ∀ c < 2, square n 2 (outb .pad) r s c = padded B (w / 2) (θ .padding) (square B 2 x) r s c := by
    intro r hr s hs c hc
    have hlt : (n * r + s) * 2 + c < 2 * n * n := by
      have : n * r + s < n * n := by rw [Nat.mul_comm n r]; exact cell_lt n r s hr hs
      calc (n * r + s) * 2 + c < 2 * (n * n) := by omega
        _ = _ := by ring
    unfold square
    rw [h2' .pad (by simp)]
    show tr (2 * n * n) (inb .pad) _ = _
    simp only [tr, hlt, if_true]
    rw [h1 .pad (by simp), List.map_append, List.sum_append, conv_other _ _ _ _ _ _ _ _ _ _ (by simp) (by simp), add_zero]
    have e0 : share (fun m => (module f g n w maps (2 * B * B) (2 * n * n) m).indim) [Node.inp] x Node.pad ((n * r + s) * 2 + c) = 0 := by simp [share]
    rw [e0, zero_add, hpin θ outb hbias r s c hr hs hc]
    unfold padded
    by_cases h : (w / 2 ≤ r ∧ r < w / 2 + B) ∧ w / 2 ≤ s ∧ s < w / 2 + B
    · rw [if_pos h, if_pos h]
      unfold square
      apply hin
      have : B * (r - w / 2) + (s - w / 2) < B * B := by rw [Nat.mul_comm B]; exact cell_lt B _ _ (by omega) (by omega)
      calc (B * (r - w / 2) + (s - w / 2)) * 2 + c < 2 * (B * B) := by omega
        _ = _ := by ring
    · rw [if_neg h, if_neg h]
  have hcell := cell_lt B i j hi hj
  have hhid : ∀ m < maps, outb .hid ((i * B + j) * maps + m) = feature f 2 w (kernel w 2 θ) (padded B (w / 2) (θ .padding) (square B 2 x)) i j m := by
    intro m hm'
    have hlt : (i * B + j) * maps + m < B * B * maps := by
      calc (i * B + j) * maps + m < (i * B + j + 1) * maps := by rw [Nat.add_mul (i * B + j) 1]; omega
        _ ≤ _ := Nat.mul_le_mul_right _ hcell
    rw [h2' .hid (by simp)]
    simp only [mod_hid f g n w maps B _ _ hD]
    show tr (B * B * maps) (fun q => f (inb .hid q)) _ = _
    simp only [tr, hlt, if_true, feature]
    congr 1
    rw [h1 .hid (by simp), List.map_append, List.sum_append, hL0 _ _ (by simp), conv_hid _ _ _ _ _ _ _ _ _ _ _ hi hj hm']
    have e0 : share (fun m => (module f g n w maps (2 * B * B) (2 * n * n) m).indim) [Node.inp] x Node.hid ((i * B + j) * maps + m) = 0 := by simp [share]
    rw [e0, zero_add, zero_add]
    refine Finset.sum_congr rfl fun k hk => Finset.sum_congr rfl fun l hl => Finset.sum_congr rfl fun c hc' => ?_
    have hk := Finset.mem_range.1 hk
    have hl := Finset.mem_range.1 hl
    rw [hpad (i + k) (by omega) (j + l) (by omega) c (Finset.mem_range.1 hc')]
  rw [h3]
  have hc : concat (fun m => (module f g n w maps (2 * B * B) (2 * n * n) m).outdim) [Node.out] outb (i * B + j) = outb .out (i * B + j) :=
    if_pos (by show i * B + j < (module f g n w maps (2 * B * B) (2 * n * n) Node.out).outdim; rw [mod_out f g n w maps B _ _ hD]; exact hcell)
  refine hc.trans ?_
  rw [h2' .out (by simp)]
  simp only [mod_out f g n w maps B _ _ hD]
  show tr (B * B) (fun q => g (inb .out q)) _ = _
  simp only [tr, hcell, if_true, output]
  congr 1
  rw [h1 .out (by simp), List.map_append, List.sum_append, hL0 _ _ (by simp), conv_out _ _ _ _ _ _ _ _ _ _ hi hj]
  have e0 : share (fun m => (module f g n w maps (2 * B * B) (2 * n * n) m).indim) [Node.inp] x Node.out (i * B + j) = 0 := by simp [share]
  rw [e0, zero_add, zero_add]
  exact Finset.sum_congr rfl fun m hm' => by rw [hhid m (Finset.mem_range.1 hm')]

end Verif.Conv

namespace Verif.Props
open Verif.Net Verif.Net.Spec Verif.Mesh Verif.Conv Verif.Conv.Spec

/-- **C110, output.** For windows smaller than the square of inputs, a convolutional network can be built and sorted; it has one output for each position of the window,
row by row, and each is computed from the features of the cells in the window at that position, with the same weights at all positions. -/
theorem C110_output (f g : ℝ → ℝ) (channels n w maps : Nat) (hw : 0 < w) (hwn : w < n) (hc : 0 < channels) (hm : 0 < maps) (name : Conv.Node → String) :
    ∃ N, Conv.Built (simpleConv f g channels n w maps) name N ∧ WF N ∧ ∀ (θ : Conv.Mother → Vec ℝ) (b : Bufs Conv.Node Conv.Mother ℝ) (x : Vec ℝ),
      ∀ i < n - w + 1, ∀ j < n - w + 1, (activate N θ b x).2 (i * (n - w + 1) + j) =
        output f g channels w maps (kernel w channels θ) (θ .outc) (square n channels x) i j := by
  obtain ⟨p, N, h1, h2, h3, h4⟩ := Conv.run f g channels n w maps (n - w + 1) (by omega) (by omega) hw hc hm name
  exact ⟨N, ⟨p, h1, h2⟩, h3, h4⟩

example : 0 < 3 ∧ 3 < 5 ∧ 0 < 2 ∧ (5 - 3 + 1 = 3) := by decide

/-- **C110, translation.** If the cells in the windows at (i, j) of one input and at (i', j') of another one agree, so do the outputs there: what a network finds in one place, it finds in
every other place, and cells outside of the window have no influence. -/
theorem C110_translation (f g : ℝ → ℝ) (channels n w maps : Nat) (hw : 0 < w) (hwn : w < n) (hc : 0 < channels) (hm : 0 < maps) (name : Conv.Node → String)
    (N : Net.Net Conv.Node Conv.Mother ℝ) (hN : Conv.Built (simpleConv f g channels n w maps) name N) (θ : Conv.Mother → Vec ℝ) (b b' : Bufs Conv.Node Conv.Mother ℝ) (x x' : Vec ℝ)
    (i j i' j' : Nat) (hi : i + w ≤ n) (hj : j + w ≤ n) (hi' : i' + w ≤ n) (hj' : j' + w ≤ n)
    (hx : ∀ k < w, ∀ l < w, ∀ c < channels, square n channels x (i + k) (j + l) c = square n channels x' (i' + k) (j' + l) c) :
    (activate N θ b x).2 (i * (n - w + 1) + j) = (activate N θ b' x').2 (i' * (n - w + 1) + j') := by
  rw [Conv.built_run (D := n - w + 1) (by omega) (by omega) hw hc hm hN θ b x i (by omega) j (by omega),
    Conv.built_run (D := n - w + 1) (by omega) (by omega) hw hc hm hN θ b' x' i' (by omega) j' (by omega)]
  unfold output feature
  congr 1
  refine Finset.sum_congr rfl fun m _ => ?_
  congr 2
  refine Finset.sum_congr rfl fun k hk => Finset.sum_congr rfl fun l hl => Finset.sum_congr rfl fun c hc' => ?_
  rw [hx k (Finset.mem_range.1 hk) l (Finset.mem_range.1 hl) c (Finset.mem_range.1 hc')]

/-- **C110, negation (window as large as the input).** A window that covers the whole input has one position, but the network cannot be built: the slice of the hidden layer is the whole
layer, which raises an AssertionError. -/
theorem C110_negation_full (f g : ℝ → ℝ) (channels n maps : Nat) : simpleConv f g channels n n maps = .error .assertion := by
  unfold simpleConv buildStructure
  by_cases h1 : 0 < n ∧ n * maps * channels = 0
  · rw [if_pos h1]
  · rw [if_neg h1]
    by_cases h2 : maps = 0
    · rw [if_pos h2]
    · rw [if_neg h2]
      have hD : Conv.outdim n n = 1 := by unfold Conv.outdim; omega
      rw [hD]
      have : cellLinks channels n n maps (whole Conv.Node.inp (channels * n * n) (channels * n * n)) 0 0 = .error .assertion := by
        unfold cellLinks hidRef
        rw [hD]
        have e : ((1 : Int) * 1 * maps).toNat = maps := by simp
        rw [e]
        simp only [C107_slice]
        rw [if_neg]
        rintro ⟨-, -, h⟩
        simp at h
      have r1 : List.range (Int.toNat 1) = [0] := by decide
      simp only [r1, List.map_cons, List.map_nil, this, collect]

/-- **C110, negation (window larger than the input).** Windows that are too large are not refused, if larger by at least two: the network can be built and sorted; it has (w - n - 1)² outputs, which have nothing to do
with its inputs (they are all g(0), the transfer function of the output layer at 0). -/
theorem C110_negation_large (f g : ℝ → ℝ) (channels n w maps : Nat) (hw : n + 2 ≤ w) (hc : 0 < channels) (hm : 0 < maps) (name : Conv.Node → String) :
    ∃ N, Conv.Built (simpleConv f g channels n w maps) name N ∧ ∀ (θ : Conv.Mother → Vec ℝ) (b : Bufs Conv.Node Conv.Mother ℝ) (x : Vec ℝ),
      ∀ k < (w - n - 1) * (w - n - 1), (activate N θ b x).2 k = g 0 := by
  have hD : Conv.outdim n w = -((w - n - 1 : Nat) : Int) := by unfold Conv.outdim; omega
  have hb : simpleConv f g channels n w maps = .ok { modules := [.inp, .hid, .out], mod := Conv.module f g n w maps (channels * n * n) 0, links := [], inmods := [.inp], outmods := [.out] } := by
    unfold simpleConv buildStructure
    have : w * maps * channels ≠ 0 := by
      have : 0 < w := by omega
      positivity
    rw [if_neg (fun h => this h.2), if_neg (by omega), hD]
    have e : (-((w - n - 1 : Nat) : Int)).toNat = 0 := by omega
    rw [e]
    rfl
  have hgood : Plan.Good { modules := [.inp, .hid, .out], mod := Conv.module f g n w maps (channels * n * n) 0, links := [], inmods := [.inp], outmods := [.out] } Conv.rank :=
    { nodup := by simp, insNodup := by simp, outsNodup := by simp, ins := by simp, outs := by simp, src := by simp, dst := by simp, rank := by simp, inSlice := by simp, outSlice := by simp }
  obtain ⟨N, hN, _, hrun⟩ := plan_run _ Conv.rank hgood name
  refine ⟨N, ⟨_, hb, hN⟩, fun θ b x k hk => ?_⟩
  obtain ⟨inb, outb, h1, h2', h3⟩ := hrun θ b x
  have ho : (Conv.module f g n w maps (channels * n * n) 0 Conv.Node.out) = pointwise .own ((w - n - 1) * (w - n - 1)) g := by
    simp only [Conv.module, hD]
    rw [neg_mul_neg, ← Int.natCast_mul, Int.toNat_natCast]
  rw [h3]
  have hc : concat (fun m => (Conv.module f g n w maps (channels * n * n) 0 m).outdim) [Conv.Node.out] outb k = outb .out k :=
    if_pos (by show k < (Conv.module f g n w maps (channels * n * n) 0 Conv.Node.out).outdim; rw [ho]; exact hk)
  refine hc.trans ?_
  rw [h2' .out (by simp)]
  simp only [ho]
  show tr ((w - n - 1) * (w - n - 1)) (fun q => g (inb .out q)) _ = _
  simp only [tr, hk, if_true]
  rw [h1 .out (by simp)]
  simp [share]

example : (5 - 2 - 1) * (5 - 2 - 1) = 4 ∧ 2 + 2 ≤ 5 := by decide

/-- **C111, output.** For boards of at least two by two cells and windows of at least two by two, a convolutional network for boards can be built and sorted. It has one
output per board position: that of a convolutional network for the board, surrounded by cells that have a trainable value for each of the two players, the same all around the board; the window of a position has
`w / 2` cells before it in each direction. -/
theorem C111_output (f g : ℝ → ℝ) (B w maps : Nat) (hB : 2 ≤ B) (hw : 2 ≤ w) (hm : 0 < maps) (name : Conv.Node → String) :
    ∃ p N, boardNetwork f g B w maps = .ok p ∧ p.sort name = .ok N ∧ WF N ∧ ∀ (θ : Conv.Mother → Vec ℝ) (b : Bufs Conv.Node Conv.Mother ℝ) (x : Vec ℝ),
      ∀ i < B, ∀ j < B, (activate N θ b x).2 (i * B + j) =
        output f g 2 w maps (kernel w 2 θ) (θ .outc) (padded B (w / 2) (θ .padding) (square B 2 x)) i j :=
  Conv.board_run f g B w maps hB hw hm name

example : paddable 2 3 = .ok [[0, 0], [0, 3], [1, 0], [1, 3], [2, 0], [2, 3], [3, 0], [3, 3], [0, 1], [0, 2], [3, 1], [3, 2]] := by decide +kernel

/-- **C111, locality.** The output at a position depends only on the cells of the board at most `w / 2` before and less than `w - w / 2` after it, in each direction. -/
theorem C111_local (f g : ℝ → ℝ) (B w maps : Nat) (hB : 2 ≤ B) (hw : 2 ≤ w) (hm : 0 < maps) (name : Conv.Node → String)
    (p : Plan Conv.Node Conv.Mother) (N : Net.Net Conv.Node Conv.Mother ℝ) (hp : boardNetwork f g B w maps = .ok p) (hN : p.sort name = .ok N)
    (θ : Conv.Mother → Vec ℝ) (b b' : Bufs Conv.Node Conv.Mother ℝ) (x x' : Vec ℝ) (i j : Nat) (hi : i < B) (hj : j < B)
    (hx : ∀ r < B, ∀ s < B, i ≤ r + w / 2 → r + w / 2 < i + w → j ≤ s + w / 2 → s + w / 2 < j + w → ∀ c < 2, square B 2 x r s c = square B 2 x' r s c) :
    (activate N θ b x).2 (i * B + j) = (activate N θ b' x').2 (i * B + j) := by
  obtain ⟨p', N', h1, h2, _, h3⟩ := Conv.board_run f g B w maps hB hw hm name
  rw [hp] at h1; cases h1
  rw [hN] at h2; cases h2
  rw [h3 θ b x i hi j hj, h3 θ b' x' i hi j hj]
  unfold output feature
  congr 1
  refine Finset.sum_congr rfl fun m _ => ?_
  congr 2
  refine Finset.sum_congr rfl fun k hk => Finset.sum_congr rfl fun l hl => Finset.sum_congr rfl fun c hc' => ?_
  have hk := Finset.mem_range.1 hk
  have hl := Finset.mem_range.1 hl
  congr 1
  unfold padded
  split
  · rename_i h
    exact hx _ (by omega) _ (by omega) (by omega) (by omega) (by omega) (by omega) c (Finset.mem_range.1 hc')
  · rfl

/-- **C111, negation (window of one cell).** A window of one cell needs no cells around the board, but the network cannot be built: the cross product with an empty list raises a TypeError, for all
sizes of the board. -/
theorem C111_negation_one (f g : ℝ → ℝ) (B maps : Nat) : boardNetwork f g B 1 maps = .error (.py .typeError) := by
  have hm : margin B 1 = [] := rfl
  have h2 : Enum.crossproduct [([] : List Nat), (List.range B).map (1 / 2 + ·)] [] = .error .typeError := rfl
  have : paddable B 1 = .error .typeError := by
    unfold paddable
    rw [hm, h2]
    cases h : Enum.crossproduct [List.range (paddedSize B 1), []] [] with
    | ok a => rfl
    | error e =>
      simp only
      have h3 : ∀ e, Enum.crossproduct [List.range (paddedSize B 1), []] [] = .error e → e = .typeError := by
        intro e he
        by_cases h0 : List.range (paddedSize B 1) = []
        · rw [h0] at he
          exact (Except.error.inj he).symm
        · obtain ⟨res, hres, _⟩ := C18_crossproduct_partial [List.range (paddedSize B 1), []] (by simp) (by simpa using h0)
          rw [hres] at he
          cases he
      rw [h3 e h]
  unfold boardNetwork
  simp only [this]

/-- **C111, negation (board of one cell).** A board of one cell cannot be handled either: the slice for its only row is the whole input layer, which raises an AssertionError. -/
theorem C111_negation_board (f g : ℝ → ℝ) (w maps : Nat) (hw : 2 ≤ w) : boardNetwork f g 1 w maps = .error (.mesh .assertion) := by
  obtain ⟨ps, hps, -, -⟩ := Conv.paddable_ok 1 w hw
  unfold boardNetwork
  simp only [hps]
  have : ∀ q : Ref Conv.Node, rowLink 1 w (whole .inp (2 * 1 * 1) (2 * 1 * 1)) q 0 = .error .assertion := fun q => rfl
  have r1 : List.range 1 = [0] := by decide
  simp only [r1, List.map_cons, List.map_nil, this, collect]

end Verif.Props

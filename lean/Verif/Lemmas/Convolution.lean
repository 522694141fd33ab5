import Verif.Model.Convolution
import Verif.Spec.Convolution
import Verif.Lemmas.Mesh
import Verif.Props.Mesh
/-
Lemmas about convolutional networks.
-/
namespace Verif.Conv
open Verif.Net Verif.Net.Spec Verif.Mesh Verif.Mesh.Spec Spec

theorem collect_ok {α β : Type} (l : List β) (F : β → Except MErr (List α)) (G : β → List α) (h : ∀ b ∈ l, F b = .ok (G b)) :
    collect (l.map F) = .ok (l.flatMap G) := by
  induction l with
  | nil => rfl
  | cons b l ih =>
    rw [List.map_cons, h b (by simp)]
    simp only [collect]
    rw [ih (fun b' hb' => h b' (by simp [hb']))]
    rfl

/-- the weights: row `k` of the window, feature map `m`, column `l`, channel `c` -/
def kernel (w channels : Nat) (θ : Mother → Vec ℝ) (k m l c : Nat) : ℝ := θ (.conv k) (m * (w * channels) + (l * channels + c))

/-- the cells of a square of width `n` in a flat vector -/
def square (n channels : Nat) (x : Vec ℝ) (r s c : Nat) : ℝ := x ((n * r + s) * channels + c)

/-- the links of one cell -/
noncomputable def cellList (channels n w maps D : Nat) (src : Node) (i j : Nat) : List (Node × Conn Node Mother ℝ) :=
  (Node.hid, fullConnection Node.out Mother.outc ((i * D + j) * maps) ((i * D + j) * maps + maps) (i * D + j) (i * D + j + 1)) ::
  (List.range w).map fun k => (src, fullConnection Node.hid (Mother.conv k) ((n * (i + k) + j) * channels) ((n * (i + k) + j) * channels + w * channels)
    ((i * D + j) * maps) ((i * D + j) * maps + maps))

theorem outdim_eq (n w D : Nat) (h : n + 1 = w + D) : outdim n w = D := by unfold outdim; omega

theorem cell_ok (channels n w maps D : Nat) (hD : n + 1 = w + D) (h2 : 2 ≤ D) (hw : 0 < w) (hc : 0 < channels) (hm : 0 < maps) (src : Node) (S : Nat)
    (hS : S = channels * n * n) (i j : Nat) : cellLinks channels n w maps (whole src S S) i j = .ok (cellList channels n w maps D src i j) := by
  have hDD : ((D : Int) * D * maps).toNat = D * D * maps := by
    rw [← Int.natCast_mul, ← Int.natCast_mul, Int.toNat_natCast]
  have hDD' : ((D : Int) * D).toNat = D * D := by
    rw [← Int.natCast_mul, Int.toNat_natCast]
  have hlt : maps + maps < D * D * maps + D * D * maps := by
    have : 1 * maps < D * D * maps := Nat.mul_lt_mul_of_pos_right (by nlinarith) hm
    omega
  have e1 : moduleSlice (hidRef n w maps) (((i : Int) * outdim n w + j) * maps) (some (((i : Int) * outdim n w + j + 1) * maps))
      (((i : Int) * outdim n w + j) * maps) (some (((i : Int) * outdim n w + j + 1) * maps)) =
      .ok { base := .hid, isSlice := true, inOff := (((i * D + j) * maps : Nat) : Int), outOff := (((i * D + j) * maps : Nat) : Int), indim := maps, outdim := maps } := by
    unfold hidRef
    rw [outdim_eq n w D hD, hDD, Props.C107_slice]
    have e : ((i : Int) * D + j + 1) * maps - ((i : Int) * D + j) * maps = maps := by ring
    simp only [Option.getD_some, e]
    rw [if_pos ⟨by positivity, by positivity, by exact_mod_cast hlt⟩]
    push_cast
    rfl
  have e2 : ∀ k, convLink channels n w (whole src S S)
      { base := .hid, isSlice := true, inOff := (((i * D + j) * maps : Nat) : Int), outOff := (((i * D + j) * maps : Nat) : Int), indim := maps, outdim := maps } i j k =
      .ok [(src, fullConnection Node.hid (Mother.conv k) ((n * (i + k) + j) * channels) ((n * (i + k) + j) * channels + w * channels)
        ((i * D + j) * maps) ((i * D + j) * maps + maps))] := by
    intro k
    unfold convLink
    have hlt' : w * channels < S := by
      rw [hS]
      have : w < n * n := by
        have : n ≤ n * n := Nat.le_mul_self n
        omega
      calc w * channels < n * n * channels := Nat.mul_lt_mul_of_pos_right this hc
        _ = channels * n * n := by ring
    rw [Props.C107_slice]
    have e : ((n * (i + k) + j : Nat) : Int) * channels + w * channels - ((n * (i + k) + j : Nat) : Int) * channels = w * channels := by ring
    simp only [Option.getD_some, Option.getD_none, e, sub_zero]
    rw [if_pos ⟨le_rfl, by positivity, by have : ((w * channels : Nat) : Int) < S := by exact_mod_cast hlt'
                                          push_cast at this; omega⟩]
    simp only [sharedFull]
    congr 3
  unfold cellLinks
  simp only [e1]
  rw [collect_ok (List.range w) _ _ (fun k _ => e2 k)]
  simp only
  congr 1
  unfold cellList
  have e3 : ((List.range w).flatMap fun k => [(src, fullConnection Node.hid (Mother.conv k) ((n * (i + k) + j) * channels) ((n * (i + k) + j) * channels + w * channels)
        ((i * D + j) * maps) ((i * D + j) * maps + maps))]) = (List.range w).map fun k => (src, fullConnection Node.hid (Mother.conv k) ((n * (i + k) + j) * channels)
        ((n * (i + k) + j) * channels + w * channels) ((i * D + j) * maps) ((i * D + j) * maps + maps)) := by
    rw [List.map_eq_flatMap]
  rw [e3]
  congr 1
  simp only [sharedFullTo, outRef, whole, outdim_eq n w D hD]
  have t1 : ((i : Int) * D + j).toNat = i * D + j := by
    rw [← Int.natCast_mul, ← Int.natCast_add, Int.toNat_natCast]
  have t2 : ((i : Int) * D + j + 1).toNat = i * D + j + 1 := by
    rw [← Int.natCast_mul, ← Int.natCast_add, Int.toNat_natCast_add_one]
  have t3 : (((i * D + j) * maps : Nat) : Int).toNat = (i * D + j) * maps := Int.toNat_natCast _
  have t4 : ((((i * D + j) * maps : Nat) : Int) + maps).toNat = (i * D + j) * maps + maps := by
    rw [← Int.natCast_add, Int.toNat_natCast]
  have t5 : ∀ k : Nat, ((0 : Int) + k).toNat = k := fun k => by simp
  simp only [t1, t2, t3, t4, t5]

/-- all links of the convolution -/
noncomputable def convList (channels n w maps D : Nat) (src : Node) : List (Node × Conn Node Mother ℝ) :=
  (List.range D).flatMap fun i => (List.range D).flatMap fun j => cellList channels n w maps D src i j

theorem build_ok (channels n w maps D : Nat) (hD : n + 1 = w + D) (h2 : 2 ≤ D) (hw : 0 < w) (hc : 0 < channels) (hm : 0 < maps) (src : Node) (S : Nat)
    (hS : S = channels * n * n) : buildStructure channels n w maps (whole src S S) = .ok (convList channels n w maps D src) := by
  unfold buildStructure
  have : w * maps * channels ≠ 0 := by positivity
  rw [if_neg (fun h => this h.2), if_neg (by omega), outdim_eq n w D hD, Int.toNat_natCast]
  refine collect_ok _ _ _ fun i _ => ?_
  exact collect_ok _ _ _ fun j _ => cell_ok channels n w maps D hD h2 hw hc hm src S hS i j

theorem sum_range_mul (w n : Nat) (F : Nat → ℝ) : ∑ t ∈ Finset.range (w * n), F t = ∑ l ∈ Finset.range w, ∑ c ∈ Finset.range n, F (l * n + c) := by
  induction w with
  | zero => simp
  | succ w ih => rw [Finset.sum_range_succ, ← ih, Nat.succ_mul, Finset.sum_range_add]

/-- what the links of a cell contribute to the input of a module -/
theorem cell_into (channels n w maps D : Nat) (src : Node) (i j : Nat) (θ : Mother → Vec ℝ) (outb : Node → Vec ℝ) (v : Node) (q : Nat) :
    ((cellList channels n w maps D src i j).map (fun a => if a.2.outmod = v then signal θ (outb a.1) a.2 q else 0)).sum =
      (if Node.out = v then (if q = i * D + j then ∑ m ∈ Finset.range maps, θ .outc m * outb .hid ((i * D + j) * maps + m) else 0) else 0) +
      (if Node.hid = v then (if (i * D + j) * maps ≤ q ∧ q < (i * D + j) * maps + maps then
        ∑ k ∈ Finset.range w, ∑ l ∈ Finset.range w, ∑ c ∈ Finset.range channels, kernel w channels θ k (q - (i * D + j) * maps) l c * square n channels (outb src) (i + k) (j + l) c
        else 0) else 0) := by
  unfold cellList
  rw [List.map_cons, List.sum_cons, List.map_map, sum_range]
  congr 1
  · show (if Node.out = v then signal θ (outb .hid) _ q else 0) = _
    rw [signal_full]
    split
    · by_cases h : q = i * D + j
      · rw [if_pos ⟨by omega, by omega⟩, if_pos h, h]
        simp only [Nat.sub_self, Nat.zero_mul, Nat.zero_add, Nat.add_sub_cancel_left]
      · rw [if_neg (by omega), if_neg h]
    · rfl
  · have e : ∀ k, ((fun a : Node × Conn Node Mother ℝ => if a.2.outmod = v then signal θ (outb a.1) a.2 q else 0) ∘
        fun k => (src, fullConnection Node.hid (Mother.conv k) ((n * (i + k) + j) * channels) ((n * (i + k) + j) * channels + w * channels)
          ((i * D + j) * maps) ((i * D + j) * maps + maps))) k =
        if Node.hid = v then (if (i * D + j) * maps ≤ q ∧ q < (i * D + j) * maps + maps then
          ∑ l ∈ Finset.range w, ∑ c ∈ Finset.range channels, kernel w channels θ k (q - (i * D + j) * maps) l c * square n channels (outb src) (i + k) (j + l) c
          else 0) else 0 := by
      intro k
      show (if Node.hid = v then signal θ (outb src) _ q else 0) = _
      rw [signal_full, Nat.add_sub_cancel_left, sum_range_mul]
      have : ∀ l c, (n * (i + k) + j) * channels + (l * channels + c) = (n * (i + k) + (j + l)) * channels + c := fun l c => by ring
      simp only [this]
      rfl
    simp only [e]
    by_cases hv : Node.hid = v
    · simp only [hv, if_true]
      by_cases hq : (i * D + j) * maps ≤ q ∧ q < (i * D + j) * maps + maps
      · simp only [hq, and_self, if_true]
      · simp only [hq, if_false, Finset.sum_const_zero]
    · simp only [hv, if_false, Finset.sum_const_zero]

theorem conv_into (channels n w maps D : Nat) (src : Node) (θ : Mother → Vec ℝ) (outb : Node → Vec ℝ) (v : Node) (q : Nat) :
    ((convList channels n w maps D src).map (fun a => if a.2.outmod = v then signal θ (outb a.1) a.2 q else 0)).sum =
      ∑ i ∈ Finset.range D, ∑ j ∈ Finset.range D,
        ((cellList channels n w maps D src i j).map (fun a => if a.2.outmod = v then signal θ (outb a.1) a.2 q else 0)).sum := by
  unfold convList
  rw [sum_flatMap, sum_range]
  refine Finset.sum_congr rfl fun i _ => ?_
  rw [sum_flatMap, sum_range]

theorem conv_other (channels n w maps D : Nat) (src : Node) (θ : Mother → Vec ℝ) (outb : Node → Vec ℝ) (v : Node) (q : Nat) (h1 : v ≠ .hid) (h2 : v ≠ .out) :
    ((convList channels n w maps D src).map (fun a => if a.2.outmod = v then signal θ (outb a.1) a.2 q else 0)).sum = 0 := by
  rw [conv_into]
  refine Finset.sum_eq_zero fun i _ => Finset.sum_eq_zero fun j _ => ?_
  rw [cell_into, if_neg (Ne.symm h2), if_neg (Ne.symm h1), add_zero]

theorem cell_inj (D i j i' j' : Nat) (hj : j < D) (hj' : j' < D) (h : i * D + j = i' * D + j') : i = i' ∧ j = j' := by
  have hD : 0 < D := by omega
  have h1 : (i * D + j) / D = i := by rw [Nat.mul_comm, Nat.mul_add_div hD, Nat.div_eq_of_lt hj, Nat.add_zero]
  have h2 : (i' * D + j') / D = i' := by rw [Nat.mul_comm, Nat.mul_add_div hD, Nat.div_eq_of_lt hj', Nat.add_zero]
  have : i = i' := by rw [← h1, ← h2, h]
  subst this
  exact ⟨rfl, by omega⟩

theorem block_inj (b a a' m : Nat) (hm : m < b) (h1 : a' * b ≤ a * b + m) (h2 : a * b + m < a' * b + b) : a' = a := by
  have h3 : a' < a + 1 := by
    by_contra hcon
    have := Nat.mul_le_mul_right b (not_lt.1 hcon)
    rw [Nat.add_mul] at this
    omega
  have h4 : a < a' + 1 := by
    by_contra hcon
    have := Nat.mul_le_mul_right b (not_lt.1 hcon)
    rw [Nat.add_mul] at this
    omega
  omega

theorem conv_hid (channels n w maps D : Nat) (src : Node) (θ : Mother → Vec ℝ) (outb : Node → Vec ℝ) (i j m : Nat) (hi : i < D) (hj : j < D) (hm : m < maps) :
    ((convList channels n w maps D src).map (fun a => if a.2.outmod = Node.hid then signal θ (outb a.1) a.2 ((i * D + j) * maps + m) else 0)).sum =
      ∑ k ∈ Finset.range w, ∑ l ∈ Finset.range w, ∑ c ∈ Finset.range channels, kernel w channels θ k m l c * square n channels (outb src) (i + k) (j + l) c := by
  rw [conv_into, Finset.sum_eq_single i, Finset.sum_eq_single j]
  · rw [cell_into, if_neg (by simp), if_pos rfl, if_pos ⟨by omega, by omega⟩, zero_add, Nat.add_sub_cancel_left]
  · intro j' hj' hne
    rw [cell_into, if_neg (by simp), if_pos rfl, if_neg, add_zero]
    rintro ⟨h1, h2⟩
    exact hne (cell_inj D i j' i j (Finset.mem_range.1 hj') hj (block_inj maps _ _ m hm h1 h2)).2
  · intro h; exact absurd (Finset.mem_range.2 hj) h
  · intro i' hi' hne
    refine Finset.sum_eq_zero fun j' hj' => ?_
    rw [cell_into, if_neg (by simp), if_pos rfl, if_neg, add_zero]
    rintro ⟨h1, h2⟩
    exact hne (cell_inj D i' j' i j (Finset.mem_range.1 hj') hj (block_inj maps _ _ m hm h1 h2)).1
  · intro h; exact absurd (Finset.mem_range.2 hi) h

theorem conv_out (channels n w maps D : Nat) (src : Node) (θ : Mother → Vec ℝ) (outb : Node → Vec ℝ) (i j : Nat) (hi : i < D) (hj : j < D) :
    ((convList channels n w maps D src).map (fun a => if a.2.outmod = Node.out then signal θ (outb a.1) a.2 (i * D + j) else 0)).sum =
      ∑ m ∈ Finset.range maps, θ .outc m * outb .hid ((i * D + j) * maps + m) := by
  rw [conv_into, Finset.sum_eq_single i, Finset.sum_eq_single j]
  · rw [cell_into, if_pos rfl, if_pos rfl, if_neg (by simp), add_zero]
  · intro j' hj' hne
    rw [cell_into, if_pos rfl, if_neg, if_neg (by simp), add_zero]
    intro h
    exact hne (cell_inj D i j i j' hj (Finset.mem_range.1 hj') h).2.symm
  · intro h; exact absurd (Finset.mem_range.2 hj) h
  · intro i' hi' hne
    refine Finset.sum_eq_zero fun j' hj' => ?_
    rw [cell_into, if_pos rfl, if_neg, if_neg (by simp), add_zero]
    intro h
    exact hne (cell_inj D i j i' j' hj (Finset.mem_range.1 hj') h).1.symm
  · intro h; exact absurd (Finset.mem_range.2 hi) h

theorem mem_conv (channels n w maps D : Nat) (src : Node) (a : Node × Conn Node Mother ℝ) (ha : a ∈ convList channels n w maps D src) :
    ∃ i j, i < D ∧ j < D ∧ (a = (Node.hid, fullConnection Node.out Mother.outc ((i * D + j) * maps) ((i * D + j) * maps + maps) (i * D + j) (i * D + j + 1)) ∨
      ∃ k < w, a = (src, fullConnection Node.hid (Mother.conv k) ((n * (i + k) + j) * channels) ((n * (i + k) + j) * channels + w * channels)
        ((i * D + j) * maps) ((i * D + j) * maps + maps))) := by
  unfold convList at ha
  obtain ⟨i, hi, ha⟩ := List.mem_flatMap.1 ha
  obtain ⟨j, hj, ha⟩ := List.mem_flatMap.1 ha
  refine ⟨i, j, List.mem_range.1 hi, List.mem_range.1 hj, ?_⟩
  rcases List.mem_cons.1 ha with h | h
  · exact Or.inl h
  · obtain ⟨k, hk, rfl⟩ := List.mem_map.1 h
    exact Or.inr ⟨k, List.mem_range.1 hk, rfl⟩

theorem cell_lt (D i j : Nat) (hi : i < D) (hj : j < D) : i * D + j < D * D := by
  calc i * D + j < (i + 1) * D := by rw [Nat.add_mul]; omega
    _ ≤ D * D := Nat.mul_le_mul_right _ hi

theorem mod_hid (f g : ℝ → ℝ) (n w maps D a b : Nat) (hD : n + 1 = w + D) : module f g n w maps a b .hid = pointwise .own (D * D * maps) f := by
  simp only [module, outdim_eq n w D hD]
  rw [← Int.natCast_mul, ← Int.natCast_mul, Int.toNat_natCast]

theorem mod_out (f g : ℝ → ℝ) (n w maps D a b : Nat) (hD : n + 1 = w + D) : module f g n w maps a b .out = pointwise .own (D * D) g := by
  simp only [module, outdim_eq n w D hD]
  rw [← Int.natCast_mul, Int.toNat_natCast]

/-- the slices of the convolution fit, its links do not go back -/
theorem conv_fits (f g : ℝ → ℝ) (channels n w maps D a b : Nat) (hD : n + 1 = w + D) (src : Node) (rank : Node → Nat)
    (hr : rank src < rank .hid ∧ rank .hid < rank .out) (hsrc : (module f g n w maps a b src).outdim = channels * n * n) :
    ∀ l ∈ convList channels n w maps D src, (l.1 = src ∨ l.1 = .hid) ∧ (l.2.outmod = .hid ∨ l.2.outmod = .out) ∧ rank l.1 < rank l.2.outmod ∧
      (l.2.inFrom ≤ l.2.inTo ∧ l.2.inTo ≤ (module f g n w maps a b l.1).outdim) ∧
      (l.2.outFrom ≤ l.2.outTo ∧ l.2.outTo ≤ (module f g n w maps a b l.2.outmod).indim) := by
  intro l hl
  obtain ⟨i, j, hi, hj, rfl | ⟨k, hk, rfl⟩⟩ := mem_conv _ _ _ _ _ _ _ hl
  · have hlt := cell_lt D i j hi hj
    have h1 : (i * D + j) * maps + maps ≤ D * D * maps := by
      calc (i * D + j) * maps + maps = (i * D + j + 1) * maps := by ring
        _ ≤ D * D * maps := Nat.mul_le_mul_right _ hlt
    refine ⟨Or.inr rfl, Or.inr rfl, hr.2, ⟨by simp [fullConnection], ?_⟩, ⟨by simp [fullConnection], ?_⟩⟩
    · show _ ≤ (module f g n w maps a b Node.hid).outdim
      rw [mod_hid f g n w maps D a b hD]
      exact h1
    · show _ ≤ (module f g n w maps a b Node.out).indim
      rw [mod_out f g n w maps D a b hD]
      exact hlt
  · have hlt := cell_lt D i j hi hj
    have h1 : (i * D + j) * maps + maps ≤ D * D * maps := by
      calc (i * D + j) * maps + maps = (i * D + j + 1) * maps := by ring
        _ ≤ D * D * maps := Nat.mul_le_mul_right _ hlt
    have h2 : (n * (i + k) + j) * channels + w * channels ≤ channels * n * n := by
      have : n * (i + k) + j + w ≤ n * n := by
        calc n * (i + k) + j + w ≤ n * (i + k) + n := by omega
          _ = n * (i + k + 1) := by ring
          _ ≤ n * n := Nat.mul_le_mul_left _ (by omega)
      calc (n * (i + k) + j) * channels + w * channels = (n * (i + k) + j + w) * channels := by ring
        _ ≤ n * n * channels := Nat.mul_le_mul_right _ this
        _ = channels * n * n := by ring
    refine ⟨Or.inl rfl, Or.inl rfl, hr.1, ⟨by simp [fullConnection], ?_⟩, ⟨by simp [fullConnection], ?_⟩⟩
    · show _ ≤ (module f g n w maps a b src).outdim
      rw [hsrc]
      exact h2
    · show _ ≤ (module f g n w maps a b Node.hid).indim
      rw [mod_hid f g n w maps D a b hD]
      exact h1

end Verif.Conv

import Verif.Lemmas.Mesh
/-
C107 Slices of modules and mesh views of flat layers.
-/
namespace Verif.Props
open Verif.Mesh Verif.Mesh.Spec

/-- **C107, mesh views.** A layer with a inputs and b outputs per unit of the grid, viewed as a grid: there is one slice for every unit and no other;
the slice of the unit with row-major number n holds the inputs [a n, a n + a) and the outputs [b n, b n + b) of the layer; every input and every
output of the layer is in the slice of exactly one unit. -/
theorem C107_view {V : Type} (v : V) (a b : Nat) (dims : List Nat) (h0 : dims ≠ []) (hp : 0 ∉ dims) (h1 : ∃ d ∈ dims, 1 < d) (hab : 0 < a + b) :
    ∃ g, viewOnFlatLayer (whole v (a * dims.prod) (b * dims.prod)) dims = .ok g ∧ (g.map Prod.fst).Nodup ∧ (∀ u, u ∈ g.map Prod.fst ↔ InGrid dims u) ∧
      (∀ u, InGrid dims u → ∃ r, g.lookup u = some r ∧ r.base = v ∧ r.indim = a ∧ r.outdim = b ∧
        r.inOff = a * rowMajor dims u ∧ r.outOff = b * rowMajor dims u) ∧
      (∀ k < a * dims.prod, ∃! u, InGrid dims u ∧ ∃ r, g.lookup u = some r ∧ r.inOff ≤ k ∧ (k : Int) < r.inOff + r.indim) ∧
      (∀ k < b * dims.prod, ∃! u, InGrid dims u ∧ ∃ r, g.lookup u = some r ∧ r.outOff ≤ k ∧ (k : Int) < r.outOff + r.outdim) := by
  obtain ⟨g, hg, hl, hk⟩ := view_ok v a b dims h0 hp h1 hab
  have cover : ∀ c k : Nat, k < c * dims.prod → ∃ u, InGrid dims u ∧ c * rowMajor dims u ≤ k ∧ k < c * rowMajor dims u + c := by
    intro c k hk
    have hc : 0 < c := Nat.pos_of_ne_zero (by rintro rfl; simp at hk)
    obtain ⟨x, hx, e⟩ := index_surj dims.reverse (k / c) (by rw [List.prod_reverse]; exact Nat.div_lt_of_lt_mul hk)
    refine ⟨x.reverse, ?_, ?_⟩
    · have := List.forall₂_reverse_iff.2 hx
      rwa [List.reverse_reverse] at this
    · rw [List.reverse_reverse] at e
      rw [e]
      have := Nat.div_add_mod k c
      have := Nat.mod_lt k hc
      omega
  have uniq : ∀ c k : Nat, ∀ u u', InGrid dims u → InGrid dims u' → c * rowMajor dims u ≤ k → k < c * rowMajor dims u + c →
      c * rowMajor dims u' ≤ k → k < c * rowMajor dims u' + c → u' = u := by
    intro c k u u' hu hu' a1 a2 a3 a4
    apply index_inj dims u' u h0 hu' hu
    have e1 : rowMajor dims u' < rowMajor dims u + 1 := by
      by_contra hcon
      have := Nat.mul_le_mul_left c (not_lt.1 hcon)
      rw [Nat.mul_add] at this
      omega
    have e2 : rowMajor dims u < rowMajor dims u' + 1 := by
      by_contra hcon
      have := Nat.mul_le_mul_left c (not_lt.1 hcon)
      rw [Nat.mul_add] at this
      omega
    omega
  refine ⟨g, hg, by rw [hk]; exact iter_nodup dims, fun u => by rw [hk]; exact iter_mem dims h0 u, fun u hu => ⟨_, hl u hu, rfl, rfl, rfl, rfl, rfl⟩, fun k hk => ?_, fun k hk => ?_⟩
  · obtain ⟨u, hu, b1, b2⟩ := cover a k hk
    refine ⟨u, ⟨hu, _, hl u hu, by simp only [piece]; exact_mod_cast b1, by simp only [piece]; exact_mod_cast b2⟩, ?_⟩
    rintro u' ⟨hu', r, hr, c1, c2⟩
    rw [hl u' hu'] at hr
    cases hr
    exact uniq a k u u' hu hu' b1 b2 (by simp only [piece] at c1; exact_mod_cast c1) (by simp only [piece] at c2; exact_mod_cast c2)
  · obtain ⟨u, hu, b1, b2⟩ := cover b k hk
    refine ⟨u, ⟨hu, _, hl u hu, by simp only [piece]; exact_mod_cast b1, by simp only [piece]; exact_mod_cast b2⟩, ?_⟩
    rintro u' ⟨hu', r, hr, c1, c2⟩
    rw [hl u' hu'] at hr
    cases hr
    exact uniq b k u u' hu hu' b1 b2 (by simp only [piece] at c1; exact_mod_cast c1) (by simp only [piece] at c2; exact_mod_cast c2)

-- a layer of 12 units as a 2 x 3 grid: the unit (1, 0) has number 3, that is inputs 6 and 7
example : ([2, 3] : List Nat) ≠ [] ∧ 0 ∉ [2, 3] ∧ (∃ d ∈ [2, 3], 1 < d) ∧ rowMajor [2, 3] [1, 0] = 3 ∧
    (viewOnFlatLayer (whole () 12 12) [2, 3]).toOption.bind (·.lookup [1, 0]) = some { base := (), isSlice := true, inOff := 6, outOff := 6, indim := 2, outdim := 2 } := by
  refine ⟨by simp, by simp, by simp, by decide, by decide +kernel⟩

/-- **C107, slices.** A slice of a module is refused exactly if it starts below 0 or does not have fewer inputs and outputs, together, than the module (in
particular the slice that is the whole module is refused); otherwise it has the given bounds, where missing upper bounds are the ends of the module. -/
theorem C107_slice {V : Type} (v : V) (I O : Nat) (inFrom outFrom : Int) (inTo outTo : Option Int) :
    moduleSlice (whole v I O) inFrom inTo outFrom outTo =
      if 0 ≤ inFrom ∧ 0 ≤ outFrom ∧ (inTo.getD I - inFrom) + (outTo.getD O - outFrom) < (I + O : Int) then
        .ok { base := v, isSlice := true, inOff := inFrom, outOff := outFrom, indim := inTo.getD I - inFrom, outdim := outTo.getD O - outFrom }
      else .error .assertion := by
  have e : moduleSlice (whole v I O) inFrom inTo outFrom outTo = if ¬ (0 ≤ inFrom ∧ 0 ≤ outFrom) then .error .assertion
      else if ¬ ((inTo.getD I - inFrom) + (outTo.getD O - outFrom) < (I + O : Int)) then .error .assertion
      else .ok { base := v, isSlice := true, inOff := inFrom, outOff := outFrom, indim := inTo.getD I - inFrom, outdim := outTo.getD O - outFrom } := rfl
  rw [e]
  by_cases h1 : 0 ≤ inFrom ∧ 0 ≤ outFrom
  · rw [if_neg (not_not.2 h1)]
    by_cases h2 : inTo.getD I - inFrom + (outTo.getD O - outFrom) < (I + O : Int)
    · rw [if_neg (not_not.2 h2), if_pos ⟨h1.1, h1.2, h2⟩]
    · rw [if_pos h2, if_neg (fun h => h2 h.2.2)]
  · rw [if_pos h1, if_neg (fun h => h1 ⟨h.1, h.2.1⟩)]

example : moduleSlice (whole () 3 4) 1 none 0 (some 2) = .ok { base := (), isSlice := true, inOff := 1, outOff := 0, indim := 2, outdim := 2 } ∧
    moduleSlice (whole () 3 4) 0 none 0 none = .error .assertion := by decide

/-- **C107, negation (slices of slices).** A slice of a slice, which the constructor means to handle, always raises an AttributeError: slices have no attribute
`inSliceFrom`. -/
theorem C107_negation_nested {V : Type} (v : V) (I O : Nat) (a c : Int) (b d : Option Int) (r : Ref V) (hr : moduleSlice (whole v I O) a b c d = .ok r)
    (a' c' : Int) (b' d' : Option Int) : moduleSlice r a' b' c' d' = .error .attributeError := by
  rw [C107_slice] at hr
  split at hr
  · cases hr; rfl
  · simp at hr

example : ∃ r, moduleSlice (whole () 4 4) 0 (some 2) 0 (some 2) = .ok r := ⟨_, by rw [C107_slice, if_pos (by decide)]⟩

/-- **C107, negation (bounds).** The upper bounds of a slice are not checked: slices that lie completely behind the end of the module are accepted. -/
theorem C107_negation_bounds {V : Type} (v : V) (n k : Nat) (hn : 2 ≤ n) (hk : n ≤ k) :
    ∃ r, moduleSlice (whole v n n) k (some (k + 1)) k (some (k + 1)) = .ok r ∧ (n : Int) ≤ r.inOff ∧ (n : Int) ≤ r.outOff ∧ r.indim = 1 ∧ r.outdim = 1 := by
  rw [C107_slice, if_pos ⟨by omega, by omega, by simp only [Option.getD_some]; omega⟩]
  exact ⟨_, rfl, by simp only; omega, by simp only; omega, by simp only [Option.getD_some]; omega, by simp only [Option.getD_some]; omega⟩

/-- **C107, negation (remainders).** If the number of inputs is no multiple of the number of units of the grid, the view is accepted nonetheless, and the last
input of the layer is in no slice. Here for one dimension. -/
theorem C107_negation_remainder {V : Type} (v : V) (n d : Nat) (hd : 1 < d) (hn : ¬ d ∣ n) :
    ∃ g, viewOnFlatLayer (whole v n n) [d] = .ok g ∧ ∀ u r, (u, r) ∈ g → r.inOff + r.indim < n := by
  have hpos : 0 < n := Nat.pos_of_ne_zero (by rintro rfl; exact hn (dvd_zero d))
  have hq : n / d * d < n := by
    rcases Nat.lt_or_ge (n / d * d) n with h | h
    · exact h
    · exact absurd ⟨n / d, by rw [Nat.mul_comm]; exact (Nat.le_antisymm (Nat.div_mul_le_self n d) h).symm⟩ hn
  have hlt : n / d + n / d < n + n := by
    have := Nat.div_lt_self hpos hd
    omega
  refine ⟨((Enum.iterCombinations [d]).zipIdx 0).map fun p => (p.1, piece v (n / d) (n / d) p.2), ?_, ?_⟩
  · unfold viewOnFlatLayer
    rw [if_neg (by simp; omega), if_neg (not_not.2 ⟨d, by simp, hd⟩)]
    have e : ((n : Int) / (([d].prod : Nat) : Int)) = ((n / d : Nat) : Int) := by simp
    show slicer _ ((n : Int) / (([d].prod : Nat) : Int)) ((n : Int) / (([d].prod : Nat) : Int)) 0 _ = _
    rw [e]
    exact slicer_ok v n n _ _ hlt _ 0
  · intro u r hr
    obtain ⟨⟨u', i⟩, hi, e⟩ := List.mem_map.1 hr
    cases e
    have hi' := List.mem_zipIdx hi
    have hlen : (Enum.iterCombinations [d]).length = d := by
      have hnd := iter_nodup [d]
      have : (Enum.iterCombinations [d]) = (List.range d).map (fun k => [k]) := by
        simp [Enum.iterCombinations, Enum.iterCombRev]
      rw [this]; simp
    have hid : i < d := by
      rw [hlen] at hi'
      omega
    simp only [piece]
    have h1 : n / d * i + n / d ≤ n / d * d := by
      calc n / d * i + n / d = n / d * (i + 1) := by ring
        _ ≤ n / d * d := Nat.mul_le_mul_left _ hid
    have h2 : n / d * i + n / d < n := lt_of_le_of_lt h1 hq
    exact_mod_cast h2

example : ¬ 3 ∣ 7 := by decide

end Verif.Props

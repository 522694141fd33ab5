import Verif.Lemmas.Convolution
import Verif.Props.Enumerate
/-
Lemmas on networks for boards.
-/
namespace Verif.Conv
open Verif.Net Verif.Net.Spec Verif.Mesh Verif.Mesh.Spec Spec

theorem size_eq (B w : Nat) (hw : 2 ≤ w) : paddedSize B w + 1 = w + B := by
  unfold paddedSize; split <;> omega

theorem mem_margin (B w : Nat) (hw : 2 ≤ w) (a : Nat) : a ∈ margin B w ↔ a < paddedSize B w ∧ ¬ (w / 2 ≤ a ∧ a < w / 2 + B) := by
  have hs := size_eq B w hw
  unfold margin
  rw [List.mem_append, List.mem_range]
  split
  · rename_i h
    simp only [List.mem_map, List.mem_range]
    constructor
    · rintro (h1 | ⟨b, hb, rfl⟩) <;> omega
    · intro h1
      by_cases h2 : a < w / 2
      · exact Or.inl h2
      · exact Or.inr ⟨a - (paddedSize B w - w / 2 + 1), by omega, by omega⟩
  · rename_i h
    simp only [List.mem_map, List.mem_range]
    constructor
    · rintro (h1 | ⟨b, hb, rfl⟩) <;> omega
    · intro h1
      by_cases h2 : a < w / 2
      · exact Or.inl h2
      · exact Or.inr ⟨a - (paddedSize B w - w / 2), by omega, by omega⟩

theorem nodup_margin (B w : Nat) (hw : 2 ≤ w) : (margin B w).Nodup := by
  have hs := size_eq B w hw
  unfold margin
  have inj : ∀ k : Nat, Function.Injective (k + ·) := fun k a b h => by simpa using h
  split
  · refine List.nodup_append.2 ⟨List.nodup_range, List.nodup_range.map (inj _), ?_⟩
    intro a ha b hb
    simp only [List.mem_map, List.mem_range] at ha hb
    obtain ⟨c, hc, rfl⟩ := hb
    omega
  · refine List.nodup_append.2 ⟨List.nodup_range, List.nodup_range.map (inj _), ?_⟩
    intro a ha b hb
    simp only [List.mem_map, List.mem_range] at ha hb
    obtain ⟨c, hc, rfl⟩ := hb
    omega

/-- the cells of the padded board that are not on the board, each once -/
theorem paddable_ok (B w : Nat) (hw : 2 ≤ w) : ∃ ps, paddable B w = .ok ps ∧ ps.Nodup ∧
    ∀ p, p ∈ ps ↔ ∃ r s, p = [r, s] ∧ r < paddedSize B w ∧ s < paddedSize B w ∧ ¬ ((w / 2 ≤ r ∧ r < w / 2 + B) ∧ (w / 2 ≤ s ∧ s < w / 2 + B)) := by
  have hs := size_eq B w hw
  have hne : margin B w ≠ [] := List.ne_nil_of_mem ((mem_margin B w hw 0).2 (by omega))
  have hne2 : List.range (paddedSize B w) ≠ [] := List.ne_nil_of_mem (List.mem_range.2 (show 0 < _ by omega))
  have inj : Function.Injective (w / 2 + ·) := fun a b h => by simpa using h
  obtain ⟨a, ha, ha1, ha2⟩ := Props.C18_crossproduct_partial [List.range (paddedSize B w), margin B w] (by simp) (by simpa using hne2)
  obtain ⟨b, hb, hb1, hb2⟩ := Props.C18_crossproduct_partial [margin B w, (List.range B).map (w / 2 + ·)] (by simp) (by simpa using hne)
  have ma : ∀ p, p ∈ a ↔ ∃ r s, p = [r, s] ∧ r < paddedSize B w ∧ s ∈ margin B w := by
    intro p
    rw [ha1]
    constructor
    · rintro (_ | ⟨h1, _ | ⟨h2, _ | _⟩⟩)
      exact ⟨_, _, rfl, List.mem_range.1 h1, h2⟩
    · rintro ⟨r, s, rfl, h1, h2⟩
      exact .cons (List.mem_range.2 h1) (.cons h2 .nil)
  have mb : ∀ p, p ∈ b ↔ ∃ r s, p = [r, s] ∧ r ∈ margin B w ∧ (w / 2 ≤ s ∧ s < w / 2 + B) := by
    intro p
    rw [hb1]
    constructor
    · rintro (_ | ⟨h1, _ | ⟨h2, _ | _⟩⟩)
      refine ⟨_, _, rfl, h1, ?_⟩
      simp only [List.mem_map, List.mem_range] at h2
      omega
    · rintro ⟨r, s, rfl, h1, h2⟩
      refine .cons h1 (.cons ?_ .nil)
      simp only [List.mem_map, List.mem_range]
      exact ⟨s - w / 2, by omega, by omega⟩
  refine ⟨a ++ b, ?_, ?_, ?_⟩
  · unfold paddable
    simp only [ha, hb]
  · refine List.nodup_append.2 ⟨ha2 ?_, hb2 ?_, ?_⟩
    · simp [List.nodup_range, nodup_margin B w hw]
    · simp [List.nodup_range.map inj, nodup_margin B w hw]
    · intro p hp q hq e
      subst e
      obtain ⟨r, s, rfl, h1, h2⟩ := (ma p).1 hp
      obtain ⟨r', s', e, h3, h4⟩ := (mb _).1 hq
      cases e
      rw [mem_margin B w hw] at h2
      omega
  · intro p
    rw [List.mem_append, ma, mb]
    constructor
    · rintro (⟨r, s, rfl, h1, h2⟩ | ⟨r, s, rfl, h1, h2⟩)
      · rw [mem_margin B w hw] at h2
        exact ⟨r, s, rfl, h1, h2.1, fun h => h2.2 h.2⟩
      · rw [mem_margin B w hw] at h1
        exact ⟨r, s, rfl, h1.1, by omega, fun h => h1.2 h.1⟩
    · rintro ⟨r, s, rfl, h1, h2, h3⟩
      by_cases h : w / 2 ≤ s ∧ s < w / 2 + B
      · refine Or.inr ⟨r, s, rfl, (mem_margin B w hw r).2 ⟨h1, fun h' => h3 ⟨h', h⟩⟩, h⟩
      · exact Or.inl ⟨r, s, rfl, h1, (mem_margin B w hw s).2 ⟨h2, h⟩⟩

/-- the connections from the board to the padded layer -/
def rowConn (B w : Nat) (i : Nat) : Node × Conn Node Mother ℝ :=
  (.inp, identityConnection .pad .own (i * B * 2) (i * B * 2 + B * 2) (((i + w / 2) * paddedSize B w + w / 2) * 2) (((i + w / 2) * paddedSize B w + w / 2) * 2 + B * 2))

theorem row_ok (B w : Nat) (hB : 2 ≤ B) (hw : 2 ≤ w) (i : Nat) :
    rowLink B w (whole .inp (2 * B * B) (2 * B * B)) (whole .pad (2 * paddedSize B w * paddedSize B w) (2 * paddedSize B w * paddedSize B w)) i = .ok [rowConn B w i] := by
  have hs := size_eq B w hw
  have l1 : B * 2 < 2 * B * B := by nlinarith
  have l2 : B * 2 < 2 * paddedSize B w * paddedSize B w := by nlinarith
  unfold rowLink rowConn
  generalize paddedSize B w = n at *
  simp only [Props.C107_slice, Option.getD_some, Option.getD_none, sub_zero]
  have e1 : (((i + 1) * B * 2 : Nat) : Int) - ((i * B * 2 : Nat) : Int) = ((B * 2 : Nat) : Int) := by push_cast; ring
  have e2 : ((((i + w / 2) * n + w / 2 + B) * 2 : Nat) : Int) - ((((i + w / 2) * n + w / 2) * 2 : Nat) : Int) = ((B * 2 : Nat) : Int) := by
    have : ((i + w / 2) * n + w / 2 + B) * 2 = ((i + w / 2) * n + w / 2) * 2 + B * 2 := by ring
    rw [this]; push_cast; ring
  rw [e1, e2, if_pos ⟨le_rfl, Int.natCast_nonneg _, by omega⟩]
  simp only
  rw [if_pos ⟨Int.natCast_nonneg _, le_rfl, by omega⟩]
  simp only [ne_eq, not_true, if_false, ← Int.natCast_add, Int.toNat_natCast]

theorem rows_ok (B w : Nat) (hB : 2 ≤ B) (hw : 2 ≤ w) :
    collect ((List.range B).map (rowLink B w (whole .inp (2 * B * B) (2 * B * B)) (whole .pad (2 * paddedSize B w * paddedSize B w) (2 * paddedSize B w * paddedSize B w)))) =
      .ok ((List.range B).map (rowConn B w)) := by
  rw [collect_ok (List.range B) _ (fun i => [rowConn B w i]) (fun i _ => row_ok B w hB hw i), List.map_eq_flatMap]

/-- the connection from the bias to a cell of the padded layer -/
theorem bias_eq (B w r s : Nat) (S : Nat) : biasLink B w (whole .pad S S) [r, s] =
    (.bias, fullConnection .pad .padding 0 1 ((r * paddedSize B w + s) * 2) ((r * paddedSize B w + s) * 2 + 2)) := by
  unfold biasLink sharedFullTo whole
  simp only [List.getD_cons_zero, List.getD_cons_succ, zero_add, Int.toNat_natCast]
  congr 2
  ring

theorem signal_identity (θ : Mother → Vec ℝ) (row : Vec ℝ) (o : Node) (pc : Mother) (a k c j : Nat) :
    signal θ row (identityConnection o pc a (a + k) c (c + k)) j = if c ≤ j ∧ j < c + k then row (a + (j - c)) else 0 := by
  have e : signal θ row (identityConnection o pc a (a + k) c (c + k)) j = if c ≤ j ∧ j < c + k then sl row a (a + k) (j - c) else 0 := rfl
  rw [e]
  by_cases h : c ≤ j ∧ j < c + k
  · rw [if_pos h, if_pos h]
    simp only [sl]
    rw [if_pos (by omega)]
  · rw [if_neg h, if_neg h]

/-- the links that pad the board -/
noncomputable def padLinks (B w : Nat) (ps : List (List Nat)) (S : Nat) : List (Node × Conn Node Mother ℝ) :=
  ps.map (biasLink B w (whole .pad S S)) ++ (List.range B).map (rowConn B w)

/-- what arrives at a cell of the padded layer -/
theorem pad_in (B w : Nat) (hw : 2 ≤ w) (ps : List (List Nat)) (hps : paddable B w = .ok ps) (S : Nat) (θ : Mother → Vec ℝ) (outb : Node → Vec ℝ)
    (hbias : outb .bias 0 = 1) (r s c : Nat) (hr : r < paddedSize B w) (hs : s < paddedSize B w) (hc : c < 2) :
    ((padLinks B w ps S).map (fun a => if a.2.outmod = Node.pad then signal θ (outb a.1) a.2 ((paddedSize B w * r + s) * 2 + c) else 0)).sum =
      padded B (w / 2) (θ .padding) (square B 2 (outb .inp)) r s c := by
  have hsz := size_eq B w hw
  obtain ⟨ps', h1, hnd, hmem⟩ := paddable_ok B w hw
  rw [hps] at h1
  cases h1
  unfold padLinks
  rw [List.map_append, List.sum_append, List.map_map, List.map_map]
  have hb : ∀ r' s', s' < paddedSize B w → (fun a : Node × Conn Node Mother ℝ => if a.2.outmod = Node.pad then signal θ (outb a.1) a.2 ((paddedSize B w * r + s) * 2 + c) else 0)
      (biasLink B w (whole .pad S S) [r', s']) = if [r', s'] = [r, s] then θ .padding c else 0 := by
    intro r' s' hs'
    rw [bias_eq]
    show (if Node.pad = Node.pad then signal θ (outb .bias) _ _ else 0) = _
    rw [if_pos rfl, signal_full]
    have comm : paddedSize B w * r = r * paddedSize B w := Nat.mul_comm _ _
    rw [comm]
    by_cases h : [r', s'] = [r, s]
    · rw [if_pos h]
      simp only [List.cons.injEq, and_true] at h
      obtain ⟨rfl, rfl⟩ := h
      rw [if_pos ⟨by omega, by omega⟩]
      simp [hbias]
    · rw [if_neg h, if_neg]
      rintro ⟨h2, h3⟩
      have : r' * paddedSize B w + s' = r * paddedSize B w + s := by omega
      obtain ⟨rfl, rfl⟩ := cell_inj _ _ _ _ _ hs' hs this
      exact h rfl
  have hrow : ∀ i, (fun a : Node × Conn Node Mother ℝ => if a.2.outmod = Node.pad then signal θ (outb a.1) a.2 ((paddedSize B w * r + s) * 2 + c) else 0)
      (rowConn B w i) = if i + w / 2 = r ∧ w / 2 ≤ s ∧ s < w / 2 + B then square B 2 (outb .inp) i (s - w / 2) c else 0 := by
    intro i
    show (if Node.pad = Node.pad then signal θ (outb .inp) _ _ else 0) = _
    rw [if_pos rfl]
    unfold rowConn
    rw [signal_identity]
    have comm : paddedSize B w * r = r * paddedSize B w := Nat.mul_comm _ _
    rw [comm]
    by_cases h : i + w / 2 = r ∧ w / 2 ≤ s ∧ s < w / 2 + B
    · rw [if_pos h]
      obtain ⟨rfl, h2, h3⟩ := h
      rw [if_pos ⟨by omega, by omega⟩]
      unfold square
      congr 1
      have : B * i = i * B := Nat.mul_comm _ _
      rw [this]
      omega
    · rw [if_neg h, if_neg]
      rintro ⟨h2, h3⟩
      have hlo : (i + w / 2) * paddedSize B w + w / 2 ≤ r * paddedSize B w + s := by omega
      have hhi : r * paddedSize B w + s < (i + w / 2) * paddedSize B w + w / 2 + B := by omega
      have hir : i + w / 2 = r := by
        have b1 : i + w / 2 < r + 1 := by
          by_contra hcon
          have := Nat.mul_le_mul_right (paddedSize B w) (not_lt.1 hcon)
          rw [Nat.add_mul] at this
          omega
        have b2 : r < i + w / 2 + 1 := by
          by_contra hcon
          have := Nat.mul_le_mul_right (paddedSize B w) (not_lt.1 hcon)
          rw [Nat.add_mul] at this
          omega
        omega
      exact h ⟨hir, by rw [hir] at hlo; omega, by rw [hir] at hhi; omega⟩
  have e1 : (ps.map ((fun a : Node × Conn Node Mother ℝ => if a.2.outmod = Node.pad then signal θ (outb a.1) a.2 ((paddedSize B w * r + s) * 2 + c) else 0) ∘ biasLink B w (whole .pad S S))).sum =
      if (w / 2 ≤ r ∧ r < w / 2 + B) ∧ (w / 2 ≤ s ∧ s < w / 2 + B) then 0 else θ .padding c := by
    by_cases h : (w / 2 ≤ r ∧ r < w / 2 + B) ∧ (w / 2 ≤ s ∧ s < w / 2 + B)
    · rw [if_pos h]
      refine sum_zero _ _ fun p hp => ?_
      obtain ⟨r', s', rfl, h1, h2, h3⟩ := (hmem p).1 hp
      refine (hb r' s' h2).trans ?_
      rw [if_neg]
      intro e
      cases e
      exact h3 h
    · rw [if_neg h, sum_single ps [r, s] ((hmem _).2 ⟨r, s, rfl, hr, hs, h⟩) hnd]
      · refine (hb r s hs).trans ?_
        rw [if_pos rfl]
      · intro p hp hne
        obtain ⟨r', s', rfl, h1, h2, h3⟩ := (hmem p).1 hp
        refine (hb r' s' h2).trans ?_
        rw [if_neg hne]
  have e2 : ((List.range B).map ((fun a : Node × Conn Node Mother ℝ => if a.2.outmod = Node.pad then signal θ (outb a.1) a.2 ((paddedSize B w * r + s) * 2 + c) else 0) ∘ rowConn B w)).sum =
      if (w / 2 ≤ r ∧ r < w / 2 + B) ∧ (w / 2 ≤ s ∧ s < w / 2 + B) then square B 2 (outb .inp) (r - w / 2) (s - w / 2) c else 0 := by
    by_cases h : (w / 2 ≤ r ∧ r < w / 2 + B) ∧ (w / 2 ≤ s ∧ s < w / 2 + B)
    · rw [if_pos h, sum_single (List.range B) (r - w / 2) (List.mem_range.2 (by omega)) List.nodup_range]
      · refine (hrow _).trans ?_
        rw [if_pos ⟨by omega, h.2⟩]
      · intro i hi hne
        refine (hrow _).trans ?_
        rw [if_neg (by omega)]
    · rw [if_neg h]
      refine sum_zero _ _ fun i hi => ?_
      have hi := List.mem_range.1 hi
      refine (hrow _).trans ?_
      rw [if_neg (by omega)]
  rw [e1, e2]
  unfold padded
  split <;> simp

/-- the links that pad the board end in the padded layer, and their slices fit -/
theorem pad_fits (f g : ℝ → ℝ) (B w maps : Nat) (hw : 2 ≤ w) (ps : List (List Nat)) (hps : paddable B w = .ok ps) (S : Nat) :
    ∀ l ∈ padLinks B w ps S, (l.1 = .bias ∨ l.1 = .inp) ∧ l.2.outmod = .pad ∧
      (l.2.inFrom ≤ l.2.inTo ∧ l.2.inTo ≤ (module f g (paddedSize B w) w maps (2 * B * B) (2 * paddedSize B w * paddedSize B w) l.1).outdim) ∧
      (l.2.outFrom ≤ l.2.outTo ∧ l.2.outTo ≤ (module f g (paddedSize B w) w maps (2 * B * B) (2 * paddedSize B w * paddedSize B w) l.2.outmod).indim) := by
  have hsz := size_eq B w hw
  obtain ⟨ps', h1, hnd, hmem⟩ := paddable_ok B w hw
  rw [hps] at h1
  cases h1
  intro l hl
  unfold padLinks at hl
  rcases List.mem_append.1 hl with h | h
  · obtain ⟨p, hp, rfl⟩ := List.mem_map.1 h
    obtain ⟨r, s, rfl, h1, h2, h3⟩ := (hmem p).1 hp
    rw [bias_eq]
    have := cell_lt _ r s h1 h2
    refine ⟨Or.inl rfl, rfl, ⟨by simp [fullConnection], le_rfl⟩, ⟨by simp [fullConnection], ?_⟩⟩
    show (r * paddedSize B w + s) * 2 + 2 ≤ 2 * paddedSize B w * paddedSize B w
    calc (r * paddedSize B w + s) * 2 + 2 ≤ 2 * (paddedSize B w * paddedSize B w) := by omega
      _ = _ := by ring
  · obtain ⟨i, hi, rfl⟩ := List.mem_map.1 h
    have hi := List.mem_range.1 hi
    refine ⟨Or.inr rfl, rfl, ⟨by simp [rowConn, identityConnection], ?_⟩, ⟨by simp [rowConn, identityConnection], ?_⟩⟩
    · show i * B * 2 + B * 2 ≤ 2 * B * B
      calc i * B * 2 + B * 2 = (i + 1) * (2 * B) := by ring
        _ ≤ B * (2 * B) := Nat.mul_le_mul_right _ hi
        _ = _ := by ring
    · show ((i + w / 2) * paddedSize B w + w / 2) * 2 + B * 2 ≤ 2 * paddedSize B w * paddedSize B w
      calc ((i + w / 2) * paddedSize B w + w / 2) * 2 + B * 2 ≤ ((i + w / 2) * paddedSize B w + paddedSize B w) * 2 := by omega
        _ = (i + w / 2 + 1) * (paddedSize B w * 2) := by ring
        _ ≤ paddedSize B w * (paddedSize B w * 2) := Nat.mul_le_mul_right _ (by omega)
        _ = _ := by ring

end Verif.Conv

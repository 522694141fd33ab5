import Verif.Lemmas.Swiping
import Verif.Spec.Border
/-
Lemmas about swiping networks with borders.
-/
namespace Verif.Border
open Verif.Net Verif.Net.Spec Verif.Mesh Verif.Mesh.Spec Verif.Swiping Verif.Swiping.Spec Spec

/-! ### the table of border connections -/

theorem lookup_append {β : Type} (l l' : List (List Nat × β)) (k : List Nat) : (l ++ l').lookup k = (l.lookup k).or (l'.lookup k) := by
  induction l with
  | nil => simp
  | cons a l ih =>
    obtain ⟨x, y⟩ := a
    rw [List.cons_append, List.lookup_cons, List.lookup_cons]
    cases k == x <;> simp [ih]

/-- what the loop over the places makes of a table -/
theorem fold_lookup (c : Cfg) (dim : Nat) (P : List Nat → Prop) [DecidablePred P] (k : List Nat) : ∀ (l : List (List Nat)) (tmp : List (List Nat × Mother)),
    (l.foldl (fun tmp t => if P t ∧ tmp.lookup t = none then tmp ++ [(t, Mother.bord dim t)] else tmp) tmp).lookup k =
      (tmp.lookup k).or (if k ∈ l ∧ P k then some (.bord dim k) else none) := by
  intro l
  induction l with
  | nil => intro tmp; simp
  | cons t l ih =>
    intro tmp
    rw [List.foldl_cons, ih]
    by_cases hkt : k = t
    · subst hkt
      by_cases hP : P k
      · cases hl : tmp.lookup k with
        | none =>
          have hc : P k ∧ (none : Option Mother) = none := ⟨hP, rfl⟩
          rw [if_pos hc, lookup_append, hl]
          simp [hP]
        | some v =>
          rw [if_neg (by simp), hl]
          rfl
      · rw [if_neg fun h => hP h.1, if_neg fun h => hP h.2, if_neg fun h => hP h.2]
    · have e : (if P t ∧ tmp.lookup t = none then tmp ++ [(t, Mother.bord dim t)] else tmp).lookup k = tmp.lookup k := by
        split_ifs
        · rw [lookup_append]
          have : ([(t, Mother.bord dim t)] : List (List Nat × Mother)).lookup k = none := by
            rw [List.lookup_cons]
            have : (k == t) = false := by simpa using hkt
            rw [this]
            rfl
          rw [this]
          simp
        · rfl
      rw [e]
      have : (k ∈ t :: l ∧ P k) ↔ (k ∈ l ∧ P k) := by simp [hkt]
      simp only [this]

open Classical in
theorem addEntries_lookup (c : Cfg) (dim : Nat) (hl : 1 < c.dims.length ∨ c.dims.length = 1) (hd : dim < c.dims.length) (start : List (List Nat × Mother)) (k : List Nat) :
    (addEntries c dim start).lookup k = (start.lookup k).or (if InGrid (c.dims.eraseIdx dim) k ∧ k = canonic c k dim then some (.bord dim k) else none) := by
  unfold addEntries
  simp only
  rw [fold_lookup c dim (fun t => t = canonic c t dim)]
  rcases hl with hl | hl
  · rw [if_neg (by omega)]
    have hne : c.dims.eraseIdx dim ≠ [] := by
      intro h
      have := congrArg List.length h
      rw [List.length_eraseIdx_of_lt hd] at this
      simp at this
      omega
    simp only [iter_mem _ hne]
  · have he : c.dims.eraseIdx dim = [] := by
      apply List.length_eq_zero_iff.1
      rw [List.length_eraseIdx_of_lt hd]
      omega
    rw [he]
    have hi : Enum.iterCombinations [] = [] := rfl
    rw [hi]
    have hc : canonic c [] dim = [] := by unfold canonic; split_ifs <;> simp
    have hg : ∀ k, InGrid [] k ↔ k = [] := by intro k; unfold InGrid; simp
    simp only [List.not_mem_nil, false_and, if_false, Option.or_none, hl, true_and]
    by_cases h0 : start.lookup [] = none
    · rw [if_pos h0, lookup_append]
      by_cases hk : k = []
      · subst hk
        rw [h0, if_pos ⟨(hg []).2 rfl, hc.symm⟩]
        rfl
      · rw [if_neg fun h => hk ((hg k).1 h.1)]
        have : ([([], Mother.bord dim [])] : List (List Nat × Mother)).lookup k = none := by
          rw [List.lookup_cons]
          have : (k == []) = false := by simpa using hk
          rw [this]
          rfl
        rw [this]
    · rw [if_neg h0]
      by_cases hk : k = []
      · subst hk
        obtain ⟨v, hv⟩ := Option.ne_none_iff_exists'.1 h0
        rw [hv]
        rfl
      · rw [if_neg fun h => hk ((hg k).1 h.1)]
        simp

/-- the canonical form is a place on the same border, and its own canonical form -/
theorem zip_canon : ∀ (ns t : List Nat), List.Forall₂ (· < ·) t ns →
    List.Forall₂ (· < ·) (List.zipWith (fun n x => min (n - 1 - x) x) ns t) ns ∧
    List.zipWith (fun n x => min (n - 1 - x) x) ns (List.zipWith (fun n x => min (n - 1 - x) x) ns t) = List.zipWith (fun n x => min (n - 1 - x) x) ns t
  | [], [], _ => ⟨by simp, rfl⟩
  | n :: ns, x :: t, h => by
    rw [List.forall₂_cons] at h
    obtain ⟨h1, h2⟩ := zip_canon ns t h.2
    simp only [List.zipWith_cons_cons, List.forall₂_cons]
    refine ⟨⟨by omega, h1⟩, ?_⟩
    rw [h2]
    congr 1
    omega

/-- places that are their own canonical form are those at most half way -/
theorem zip_fixed : ∀ (ns t : List Nat), (List.Forall₂ (· < ·) t ns ∧ t = List.zipWith (fun n x => min (n - 1 - x) x) ns t) ↔ List.Forall₂ (fun x n => x < n ∧ 2 * x < n) t ns
  | [], [] => by simp
  | [], x :: t => by simp
  | n :: ns, [] => by simp
  | n :: ns, x :: t => by
    rw [List.forall₂_cons, List.forall₂_cons, ← zip_fixed ns t, List.zipWith_cons_cons, List.cons.injEq]
    constructor
    · rintro ⟨⟨h1, h2⟩, h3, h4⟩
      exact ⟨⟨h1, by omega⟩, h2, h4⟩
    · rintro ⟨⟨h1, h2⟩, h3, h4⟩
      exact ⟨⟨h1, h3⟩, by omega, h4⟩

theorem inGrid_eraseIdx : ∀ (dims u : List Nat) (d : Nat), InGrid dims u → InGrid (dims.eraseIdx d) (u.eraseIdx d)
  | [], [], _, _ => by simp [InGrid]
  | n :: ns, x :: u, 0, h => by
    unfold InGrid at h ⊢
    rw [List.forall₂_cons] at h
    simpa using h.2
  | n :: ns, x :: u, d + 1, h => by
    unfold InGrid at h ⊢
    rw [List.forall₂_cons] at h
    simp only [List.eraseIdx_cons_succ, List.forall₂_cons]
    exact ⟨h.1, inGrid_eraseIdx ns u d h.2⟩

/-- every border has its container -/
theorem bconn_eq (c : Cfg) (ok : Cfg.Ok c) (simple : Bool) (d : Nat) (hd : d < c.dims.length) (u : List Nat) (hu : InGrid c.dims u) : bconn c simple d u = container c simple d u := by
  unfold bconn container
  cases simple with
  | true => rfl
  | false =>
    have hlen : 1 < c.dims.length ∨ c.dims.length = 1 := by omega
    have h0 : 0 < c.dims.length := by omega
    have hg := inGrid_eraseIdx c.dims u d hu
    simp only [Bool.false_eq_true, if_false]
    by_cases hs : c.symmetricdimensions = true
    · rw [if_pos hs]
      have hcan : canonic c (u.eraseIdx d) d = depth c.dims d u := by unfold canonic depth; rw [if_pos hs]
      obtain ⟨hz1, hz2⟩ := zip_canon (c.dims.eraseIdx d) (u.eraseIdx d) hg
      have hfix : InGrid (c.dims.eraseIdx d) (depth c.dims d u) ∧ depth c.dims d u = canonic c (depth c.dims d u) d := by
        refine ⟨hz1, ?_⟩
        unfold canonic
        rw [if_pos hs]
        exact hz2.symm
      have hsh : ∀ k, (InGrid (c.dims.eraseIdx 0) k ∧ k = canonic c k 0) ↔ Shared c.dims k := by
        intro k
        unfold canonic Shared
        rw [if_pos hs]
        exact zip_fixed _ _
      rw [hcan]
      unfold table
      by_cases hpos : 0 < d
      · rw [if_pos ⟨hpos, hs⟩, addEntries_lookup c d hlen hd, addEntries_lookup c 0 hlen h0, if_pos hfix]
        by_cases hS : Shared c.dims (depth c.dims d u)
        · rw [if_pos ((hsh _).2 hS), if_pos hS]
          rfl
        · rw [if_neg fun h => hS ((hsh _).1 h), if_neg hS]
          rfl
      · have hd0 : d = 0 := by omega
        subst hd0
        rw [if_neg (by simp), addEntries_lookup c 0 hlen h0, if_pos hfix, if_pos ((hsh _).1 hfix)]
        rfl
    · rw [if_neg hs]
      have hcan : ∀ t, canonic c t d = t := by intro t; unfold canonic; rw [if_neg hs]
      unfold table
      rw [if_neg fun h => hs h.2, hcan, addEntries_lookup c d hlen hd, if_pos ⟨hg, (hcan _).symm⟩]
      rfl

/-! ### the connections of the borders -/

theorem sum_filter_map {α : Type} (l : List α) (p : α → Bool) (F : α → ℝ) : ((l.filter p).map F).sum = (l.map fun a => if p a then F a else 0).sum := by
  induction l with
  | nil => rfl
  | cons a l ih =>
    rw [List.filter_cons, List.map_cons, List.sum_cons]
    cases p a <;> simp [ih]

/-- a swipe enters the grid at a unit, in some dimension, where there is no previous one -/
theorem hunits_sum (c : Cfg) (ok : Cfg.Ok c) (d : Nat) (hd : d < c.dims.length) (u : List Nat) (hu : InGrid c.dims u) (s : Nat) (hs : s < 2 ^ c.dims.length) (v : ℝ) :
    ((hunits c d u).map fun s' => if s' = s then v else 0).sum = if prev c.dims s d u = none then v else 0 := by
  have hlt := ((inGrid_iff _ _).1 hu).2 d hd
  have h2 : 1 < c.dims.getD d 0 := by
    rw [List.getD_eq_getElem _ _ hd]
    exact ok.two _ (List.getElem_mem _)
  have one : ∀ p : Nat → Bool, (((List.range c.swipes).filter p).map fun s' => if s' = s then v else 0).sum = if p s then v else 0 := by
    intro p
    rw [sum_filter_map, sum_range]
    have hm : s ∈ Finset.range c.swipes := Finset.mem_range.2 hs
    rw [Finset.sum_eq_single s]
    · simp
    · intro b _ hb
      simp [hb]
    · intro h; exact absurd hm h
  unfold hunits
  rw [List.map_append, List.sum_append]
  have e1 : ((if u.getD d 0 = 0 then (List.range c.swipes).filter (fun swipe => decide ((swipe / 2 ^ d) % 2 = 0)) else []).map fun s' => if s' = s then v else 0).sum =
      if u.getD d 0 = 0 ∧ Up s d then v else 0 := by
    by_cases h : u.getD d 0 = 0
    · rw [if_pos h, one]
      unfold Up
      simp only [decide_eq_true_eq, h, true_and]
    · rw [if_neg h, if_neg fun h' => h h'.1]
      rfl
  have e2 : ((if u.getD d 0 = c.dims.getD d 0 - 1 then (List.range c.swipes).filter (fun swipe => decide ((swipe / 2 ^ d) % 2 = 1)) else []).map fun s' => if s' = s then v else 0).sum =
      if u.getD d 0 = c.dims.getD d 0 - 1 ∧ ¬Up s d then v else 0 := by
    by_cases h : u.getD d 0 = c.dims.getD d 0 - 1
    · rw [if_pos h, one]
      have : (s / 2 ^ d) % 2 = 1 ↔ ¬Up s d := by unfold Up; omega
      simp only [decide_eq_true_eq, this, h, true_and]
    · rw [if_neg h, if_neg fun h' => h h'.1]
      rfl
  rw [e1, e2]
  unfold prev
  by_cases hup : Up s d
  · simp only [hup, not_true_eq_false, and_true, and_false, if_true, if_false, add_zero]
    by_cases h : u.getD d 0 = 0
    · simp [h]
    · simp [h]
  · simp only [hup, not_false_eq_true, and_true, and_false, if_true, if_false, zero_add]
    by_cases h : u.getD d 0 + 1 < c.dims.getD d 0
    · rw [if_pos h, if_neg (by omega), if_neg (by simp)]
    · rw [if_neg h, if_pos (by omega), if_pos rfl]

theorem mem_borderLinks (c : Cfg) (ok : Cfg.Ok c) (simple : Bool) (a : Node × Conn Node Mother ℝ) (ha : a ∈ borderLinks c simple) :
    ∃ d u s, d < c.dims.length ∧ InGrid c.dims u ∧ s < 2 ^ c.dims.length ∧ a = (Node.bias, fullConnection (Node.hid u s) (bconn c simple d u) 0 1 0 c.hsize) := by
  unfold borderLinks at ha
  obtain ⟨d, hd, ha⟩ := List.mem_flatMap.1 ha
  obtain ⟨u, hu, ha⟩ := List.mem_flatMap.1 ha
  obtain ⟨s, hs, rfl⟩ := List.mem_map.1 ha
  refine ⟨d, u, s, List.mem_range.1 hd, (iter_mem c.dims ok.dims u).1 hu, ?_, by simp [sharedFull, whole, hidRef]⟩
  unfold hunits at hs
  rcases List.mem_append.1 hs with hs | hs
  · split_ifs at hs
    · exact List.mem_range.1 (List.mem_of_mem_filter hs)
    · simp at hs
  · split_ifs at hs
    · exact List.mem_range.1 (List.mem_of_mem_filter hs)
    · simp at hs

/-- what the borders contribute to the input of a hidden layer -/
theorem border_into (c : Cfg) (ok : Cfg.Ok c) (simple : Bool) (θ : Mother → Vec ℝ) (outb : Node → Vec ℝ) (hb : outb .bias 0 = 1) (u : List Nat) (hu : InGrid c.dims u) (s : Nat) (hs : s < 2 ^ c.dims.length)
    (j : Nat) (hj : j < c.hsize) :
    ((borderLinks c simple).map (fun a => if a.2.outmod = Node.hid u s then signal θ (outb a.1) a.2 j else 0)).sum =
      ∑ d ∈ Finset.range c.dims.length, if prev c.dims s d u = none then borders c simple θ d u j else 0 := by
  unfold borderLinks
  rw [sum_flatMap, sum_range]
  refine Finset.sum_congr rfl fun d hd => ?_
  have hd := Finset.mem_range.1 hd
  have hsig : ∀ u' s', InGrid c.dims u' → signal θ (outb (sharedFull (bconn c simple d u') (whole Node.bias 0 1) (hidRef c u' s')).1) (sharedFull (bconn c simple d u') (whole Node.bias 0 1) (hidRef c u' s')).2 j = borders c simple θ d u' j := by
    intro u' s' hu'
    have e : sharedFull (bconn c simple d u') (whole Node.bias 0 1) (hidRef c u' s') = (Node.bias, fullConnection (Node.hid u' s') (bconn c simple d u') 0 1 0 c.hsize) := by simp [sharedFull, whole, hidRef]
    rw [e, signal_full, if_pos ⟨Nat.zero_le _, hj⟩]
    simp only [Nat.sub_zero, Finset.sum_range_one, Nat.add_zero, Nat.mul_one, hb, mul_one]
    rw [bconn_eq c ok simple d hd u' hu']
    rfl
  have hout : ∀ u' s', (sharedFull (bconn c simple d u') (whole Node.bias 0 1) (hidRef c u' s')).2.outmod = Node.hid u' s' := fun _ _ => rfl
  rw [sum_flatMap, sum_single _ u ((iter_mem c.dims ok.dims u).2 hu) (iter_nodup c.dims)]
  · rw [List.map_map, ← hunits_sum c ok d hd u hu s hs]
    congr 1
    refine List.map_congr_left fun s' _ => ?_
    simp only [Function.comp_apply, hout, hsig u s' hu]
    simp
  · intro u' hu' hne
    rw [List.map_map]
    refine sum_zero _ _ fun s' _ => ?_
    simp only [Function.comp_apply, hout]
    rw [if_neg (by simp [hne])]

theorem border_out (c : Cfg) (simple : Bool) (θ : Mother → Vec ℝ) (outb : Node → Vec ℝ) (n : Node) (hn : ∀ u s, n ≠ .hid u s) (j : Nat) :
    ((borderLinks c simple).map (fun a => if a.2.outmod = n then signal θ (outb a.1) a.2 j else 0)).sum = 0 := by
  refine sum_zero _ _ fun a ha => ?_
  unfold borderLinks at ha
  obtain ⟨d, hd, ha⟩ := List.mem_flatMap.1 ha
  obtain ⟨u, hu, ha⟩ := List.mem_flatMap.1 ha
  obtain ⟨s, hs, rfl⟩ := List.mem_map.1 ha
  exact if_neg fun h => hn u s h.symm

/-! ### the network -/

theorem goodB (c : Cfg) (ok : Cfg.Ok c) (simple : Bool) (ing outg : Grid Node)
    (hi : ∀ u, InGrid c.dims u → ing.lookup u = some (piece .inp c.insize c.insize (rowMajor c.dims u)))
    (ho : ∀ u, InGrid c.dims u → outg.lookup u = some (piece .out c.outputs c.outputs (rowMajor c.dims u))) :
    Plan.Good { modules := nodes c ++ [.bias], mod := module c, links := links c ing outg ++ borderLinks c simple, inmods := [.inp], outmods := [.out] } (rank c) := by
  have g := good c ok ing outg hi ho
  have key : ∀ a ∈ borderLinks c simple, (a.1 ∈ nodes c ++ [.bias] ∧ a.2.outmod ∈ nodes c ++ [.bias]) ∧ rank c a.1 < rank c a.2.outmod ∧
      (a.2.inFrom ≤ a.2.inTo ∧ a.2.inTo ≤ (module c a.1).outdim) ∧ (a.2.outFrom ≤ a.2.outTo ∧ a.2.outTo ≤ (module c a.2.outmod).indim) := by
    intro a ha
    obtain ⟨d, u, s, hd, hu, hs, rfl⟩ := mem_borderLinks c ok simple a ha
    refine ⟨⟨by simp, List.mem_append_left _ (mem_nodes c ok.dims u s hu hs)⟩, by simp [rank, fullConnection], ⟨by simp [fullConnection], by simp [fullConnection, module, biasUnit]⟩, ⟨by simp [fullConnection], le_rfl⟩⟩
  have cases' : ∀ {P : Node × Conn Node Mother ℝ → Prop}, (∀ a ∈ links c ing outg, P a) → (∀ a ∈ borderLinks c simple, P a) → ∀ a ∈ links c ing outg ++ borderLinks c simple, P a := by
    intro P h1 h2 a ha
    rcases List.mem_append.1 ha with ha | ha
    · exact h1 a ha
    · exact h2 a ha
  exact
    { nodup := by
        refine List.nodup_append.2 ⟨nodup_nodes c, by simp, ?_⟩
        intro a ha b hb e
        rw [List.mem_singleton] at hb
        subst hb
        subst e
        simp [nodes] at ha
      insNodup := by simp
      outsNodup := by simp
      ins := by simp [nodes]
      outs := by simp [nodes]
      src := cases' (fun a ha => List.mem_append_left _ (g.src a ha)) fun a ha => (key a ha).1.1
      dst := cases' (fun a ha => List.mem_append_left _ (g.dst a ha)) fun a ha => (key a ha).1.2
      rank := cases' g.rank fun a ha => (key a ha).2.1
      inSlice := cases' g.inSlice fun a ha => (key a ha).2.2.1
      outSlice := cases' g.outSlice fun a ha => (key a ha).2.2.2 }

/-- building, sorting and activating -/
theorem runB (c : Cfg) (ok : Cfg.Ok c) (simple : Bool) (name : Node → String) :
    ∃ p N, borderNetwork c simple = .ok p ∧ p.sort name = .ok N ∧ WF N ∧ ∀ (θ : Mother → Vec ℝ) (b : Bufs Node Mother ℝ) (x : Vec ℝ), ∃ H,
      BorderSwipes c (weights c θ) (borders c simple θ) (inputAt c x) H ∧
      ∀ u, InGrid c.dims u → ∀ j < c.outputs, (activate N θ b x).2 (c.outputs * rowMajor c.dims u + j) = result c (weights c θ) H u j := by
  obtain ⟨ing, outg, hi, ho, hb⟩ := build_ok c ok
  obtain ⟨N, hN, wf, hrun⟩ := plan_run _ (rank c) (goodB c ok simple ing outg hi ho) name
  refine ⟨_, N, by unfold borderNetwork; rw [hb]; simp only [Bool.true_eq_false, if_false], hN, wf, fun θ b x => ?_⟩
  obtain ⟨inb, outb, h1, h2, h3⟩ := hrun θ b x
  have hsum : ∀ F : Node × Conn Node Mother ℝ → ℝ, ((links c ing outg ++ borderLinks c simple).map F).sum =
      ((Enum.iterCombinations c.dims).map fun u => ∑ s ∈ Finset.range (2 ^ c.dims.length), ((unitLinks c ing outg u s).map F).sum).sum + ((borderLinks c simple).map F).sum := by
    intro F
    rw [List.map_append, List.sum_append]
    congr 1
    unfold links
    rw [sum_flatMap]
    congr 1
    refine List.map_congr_left fun u _ => ?_
    rw [sum_flatMap, sum_range]
    rfl
  -- the bias
  have hbias : outb .bias 0 = 1 := by
    rw [h2 .bias (by simp)]
    rfl
  -- the input layer
  have hin : ∀ k, k < c.insize * c.dims.prod → outb .inp k = x k := by
    intro k hk
    rw [h2 .inp (by simp [nodes])]
    have e : inb .inp k = x k := by
      rw [h1 .inp (by simp [nodes]) k, hsum, sum_zero, border_out c simple θ outb .inp (by simp)]
      · have e1 : (module c Node.inp).indim = c.insize * c.dims.prod := rfl
        simp only [share, if_true, tr, e1, hk, add_zero]
      · intro u hu
        have hu := (iter_mem c.dims ok.dims u).1 hu
        refine Finset.sum_eq_zero fun s _ => ?_
        rw [unit_into c ing outg u s hu (hi u hu) (ho u hu), if_neg (by simp), if_neg (by simp), add_zero]
    show tr (c.insize * c.dims.prod) (inb .inp) k = x k
    simp only [tr, hk, if_true, e]
  -- the hidden layers
  have hhid : BorderSwipes c (weights c θ) (borders c simple θ) (inputAt c x) fun u s => outb (.hid u s) := by
    intro u hu s hs j hj
    have hmem : Node.hid u s ∈ nodes c ++ [.bias] := List.mem_append_left _ (mem_nodes c ok.dims u s hu hs)
    have hg : outb (.hid u s) j = c.f (inb (.hid u s) j) := by
      rw [h2 (.hid u s) hmem]
      show tr c.hsize (fun j => c.f (inb (.hid u s) j)) j = _
      simp only [tr, hj, if_true]
    refine hg.trans ?_
    congr 1
    rw [h1 _ hmem j, hsum, border_into c ok simple θ outb hbias u hu s hs j hj]
    have e0 : share (fun m => (module c m).indim) [Node.inp] x (Node.hid u s) j = 0 := by simp [share]
    rw [e0, zero_add, sum_single _ u ((iter_mem c.dims ok.dims u).2 hu) (iter_nodup c.dims), Finset.sum_eq_single s]
    · rw [unit_into c ing outg u s hu (hi u hu) (ho u hu), if_pos rfl, if_pos hj, if_neg (by simp), add_zero, add_assoc, ← Finset.sum_add_distrib]
      congr 1
      · refine Finset.sum_congr rfl fun i hi' => ?_
        have hlt : c.insize * rowMajor c.dims u + i < c.insize * c.dims.prod := by
          have := Finset.mem_range.1 hi'
          calc c.insize * rowMajor c.dims u + i < c.insize * (rowMajor c.dims u + 1) := by rw [Nat.mul_add]; omega
            _ ≤ _ := Nat.mul_le_mul_left _ (index_lt c.dims u hu)
        rw [hin _ hlt]
        rfl
      · refine Finset.sum_congr rfl fun d _ => ?_
        cases prev c.dims s d u with
        | none => simp
        | some v => simp
    · intro s' _ hs'
      rw [unit_into c ing outg u s' hu (hi u hu) (ho u hu), if_neg (by simpa using hs'), if_neg (by simp), add_zero]
    · intro h; exact absurd (Finset.mem_range.2 hs) h
    · intro u' hu' hne
      have hu' := (iter_mem c.dims ok.dims u').1 hu'
      refine Finset.sum_eq_zero fun s' _ => ?_
      rw [unit_into c ing outg u' s' hu' (hi u' hu') (ho u' hu'), if_neg (by simp [hne]), if_neg (by simp), add_zero]
  refine ⟨fun u s => outb (.hid u s), hhid, fun u hu j hj => ?_⟩
  -- the output layer
  have hlt : c.outputs * rowMajor c.dims u + j < c.outputs * c.dims.prod := by
    calc c.outputs * rowMajor c.dims u + j < c.outputs * (rowMajor c.dims u + 1) := by rw [Nat.mul_add]; omega
      _ ≤ _ := Nat.mul_le_mul_left _ (index_lt c.dims u hu)
  have hmem : Node.out ∈ nodes c ++ [.bias] := by simp [nodes]
  rw [h3]
  have hc : concat (fun m => (module c m).outdim) [Node.out] outb (c.outputs * rowMajor c.dims u + j) = outb .out (c.outputs * rowMajor c.dims u + j) :=
    if_pos hlt
  refine hc.trans ?_
  have hg : outb .out (c.outputs * rowMajor c.dims u + j) = c.g (inb .out (c.outputs * rowMajor c.dims u + j)) := by
    rw [h2 .out hmem]
    show tr (c.outputs * c.dims.prod) (fun j => c.g (inb .out j)) _ = _
    simp only [tr, hlt, if_true]
  rw [hg]
  unfold result
  congr 1
  rw [h1 _ hmem _, hsum, border_out c simple θ outb .out (by simp), add_zero]
  have e0 : share (fun m => (module c m).indim) [Node.inp] x Node.out (c.outputs * rowMajor c.dims u + j) = 0 := by simp [share]
  rw [e0, zero_add, sum_single _ u ((iter_mem c.dims ok.dims u).2 hu) (iter_nodup c.dims)]
  · refine Finset.sum_congr rfl fun s hs => ?_
    rw [unit_into c ing outg u s hu (hi u hu) (ho u hu), if_neg (by simp), if_pos rfl, if_pos ⟨by omega, by omega⟩, zero_add, Nat.add_sub_cancel_left]
  · intro u' hu' hne
    have hu' := (iter_mem c.dims ok.dims u').1 hu'
    refine Finset.sum_eq_zero fun s _ => ?_
    rw [unit_into c ing outg u' s hu' (hi u' hu') (ho u' hu'), if_neg (by simp), if_pos rfl, if_neg, add_zero]
    rintro ⟨ha, hb⟩
    apply hne
    apply index_inj c.dims u' u ok.dims hu' hu
    have hpos := ok.outs
    have h1 : rowMajor c.dims u' < rowMajor c.dims u + 1 := by
      by_contra hcon
      have := Nat.mul_le_mul_left c.outputs (not_lt.1 hcon)
      rw [Nat.mul_add] at this
      omega
    have h2 : rowMajor c.dims u < rowMajor c.dims u' + 1 := by
      by_contra hcon
      have := Nat.mul_le_mul_left c.outputs (not_lt.1 hcon)
      rw [Nat.mul_add] at this
      omega
    omega

/-! ### uniqueness and symmetries -/

theorem unique (c : Cfg) (W : Weights) (B : Nat → List Nat → Nat → ℝ) (x : List Nat → Nat → ℝ) (H H' : List Nat → Nat → Nat → ℝ) (h : BorderSwipes c W B x H) (h' : BorderSwipes c W B x H') :
    ∀ n u, InGrid c.dims u → ∀ s < 2 ^ c.dims.length, progress c.dims s u ≤ n → ∀ j < c.hsize, H u s j = H' u s j := by
  intro n
  induction n using Nat.strong_induction_on with
  | _ n ih =>
    intro u hu s hs hn j hj
    rw [h u hu s hs j hj, h' u hu s hs j hj]
    congr 2
    refine Finset.sum_congr rfl fun d hd => ?_
    have hd := Finset.mem_range.1 hd
    cases hp : prev c.dims s d u with
    | none => rfl
    | some v =>
      simp only [Option.elim_some]
      have hlt := progress_prev hu hd hp
      exact Finset.sum_congr rfl fun i hi => by rw [ih (progress c.dims s v) (by omega) v (prev_unit hu hd hp) s hs le_rfl i (Finset.mem_range.1 hi)]

theorem result_eq (c : Cfg) (W : Weights) (B : Nat → List Nat → Nat → ℝ) (x : List Nat → Nat → ℝ) (H H' : List Nat → Nat → Nat → ℝ) (h : BorderSwipes c W B x H) (h' : BorderSwipes c W B x H')
    (u : List Nat) (hu : InGrid c.dims u) (j : Nat) : result c W H u j = result c W H' u j := by
  unfold result
  congr 1
  refine Finset.sum_congr rfl fun s hs => Finset.sum_congr rfl fun i hi => ?_
  rw [unique c W B x H H' h h' _ u hu s (Finset.mem_range.1 hs) le_rfl i (Finset.mem_range.1 hi)]

theorem borders_mirror (c : Cfg) (W : Weights) (hW : ∀ d j i, W.wh d true j i = W.wh d false j i) (B : Nat → List Nat → Nat → ℝ) (d : Nat) (hd : d < c.dims.length)
    (hB : ∀ e < c.dims.length, ∀ u, InGrid c.dims u → ∀ j, B e (mirror c.dims d u) j = B e u j)
    (x : List Nat → Nat → ℝ) (H : List Nat → Nat → Nat → ℝ) (h : BorderSwipes c W B x H) (x' : List Nat → Nat → ℝ)
    (hx : ∀ u, InGrid c.dims u → ∀ i < c.insize, x' u i = x (mirror c.dims d u) i) :
    BorderSwipes c W B x' (fun u s => H (mirror c.dims d u) (flip d s)) := by
  intro u hu s hs j hj
  have hum := mirror_unit c.dims d u hu hd
  simp only
  rw [h _ hum _ (flip_lt d s _ hd hs) j hj]
  congr 1
  congr 1
  · exact Finset.sum_congr rfl fun i hi => by rw [hx u hu i (Finset.mem_range.1 hi)]
  · refine Finset.sum_congr rfl fun e he => ?_
    rw [prev_mirror c.dims s d e u hu hd (Finset.mem_range.1 he)]
    cases prev c.dims s e u with
    | none => exact hB e (Finset.mem_range.1 he) u hu j
    | some v =>
      simp only [Option.map_some, Option.elim_some]
      refine Finset.sum_congr rfl fun i _ => ?_
      have : ∀ a b : Bool, W.wh e a j i = W.wh e b j i := by
        intro a b
        cases a <;> cases b <;> simp [hW]
      rw [this _ (decide (Up s e))]

theorem borders_exchange (c : Cfg) (W : Weights) (hW : ∀ d e p j i, W.wh d p j i = W.wh e p j i) (B : Nat → List Nat → Nat → ℝ) (a b : Nat) (ha : a < c.dims.length) (hb : b < c.dims.length)
    (hab : c.dims.getD a 0 = c.dims.getD b 0) (hB : ∀ e < c.dims.length, ∀ u, InGrid c.dims u → ∀ j, B (Equiv.swap a b e) (exchange a b u) j = B e u j)
    (x : List Nat → Nat → ℝ) (H : List Nat → Nat → Nat → ℝ) (h : BorderSwipes c W B x H) (x' : List Nat → Nat → ℝ)
    (hx : ∀ u, InGrid c.dims u → ∀ i < c.insize, x' u i = x (exchange a b u) i) :
    BorderSwipes c W B x' (fun u s => H (exchange a b u) (swapBits a b s)) := by
  intro u hu s hs j hj
  have hum := exchange_unit c.dims a b u hu ha hb hab
  simp only
  rw [h _ hum _ (swapBits_lt a b s _ ha hb hs) j hj]
  congr 1
  congr 1
  · exact Finset.sum_congr rfl fun i hi => by rw [hx u hu i (Finset.mem_range.1 hi)]
  · rw [← sum_swap _ a b ha hb]
    refine Finset.sum_congr rfl fun e he => ?_
    rw [prev_exchange c.dims s a b e u hu ha hb hab (Finset.mem_range.1 he)]
    cases prev c.dims s e u with
    | none => exact hB e (Finset.mem_range.1 he) u hu j
    | some v =>
      simp only [Option.map_some, Option.elim_some, up_swapBits]
      exact Finset.sum_congr rfl fun i _ => by rw [hW _ e]

/-- the depth of a mirror image is the same -/
theorem depth_mirror : ∀ (dims u : List Nat) (d e : Nat), InGrid dims u → depth dims e (mirror dims d u) = depth dims e u
  | [], [], d, e, _ => by simp [depth, mirror]
  | n :: ns, x :: u, 0, 0, h => by simp [depth, mirror]
  | n :: ns, x :: u, 0, e + 1, h => by
    unfold InGrid at h
    rw [List.forall₂_cons] at h
    simp only [depth, mirror, List.getD_cons_zero, List.set_cons_zero, List.eraseIdx_cons_succ, List.zipWith_cons_cons]
    congr 1
    omega
  | n :: ns, x :: u, d + 1, 0, h => by
    unfold InGrid at h
    rw [List.forall₂_cons] at h
    simp only [depth, mirror, List.getD_cons_succ, List.set_cons_succ, List.eraseIdx_cons_zero]
    have : ∀ (ns u : List Nat) (d : Nat), List.Forall₂ (· < ·) u ns → List.zipWith (fun n x => min (n - 1 - x) x) ns (u.set d (ns.getD d 0 - 1 - u.getD d 0)) = List.zipWith (fun n x => min (n - 1 - x) x) ns u := by
      intro ns
      induction ns with
      | nil => intro u d h; simp
      | cons n ns ih =>
        intro u d h
        cases u with
        | nil => simp
        | cons x u =>
          rw [List.forall₂_cons] at h
          cases d with
          | zero =>
            simp only [List.getD_cons_zero, List.set_cons_zero, List.zipWith_cons_cons]
            congr 1
            omega
          | succ d =>
            simp only [List.getD_cons_succ, List.set_cons_succ, List.zipWith_cons_cons]
            rw [ih u d h.2]
    exact this ns u d h.2
  | n :: ns, x :: u, d + 1, e + 1, h => by
    unfold InGrid at h
    rw [List.forall₂_cons] at h
    have ih := depth_mirror ns u d e h.2
    simp only [depth, mirror, List.getD_cons_succ, List.set_cons_succ, List.eraseIdx_cons_succ, List.zipWith_cons_cons] at ih ⊢
    rw [ih]

end Verif.Border

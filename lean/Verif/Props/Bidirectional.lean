import Verif.Spec.Bidirectional
import Verif.Lemmas.Mesh
/-
C109 Bidirectional networks.
-/
namespace Verif.Bidir
open Verif.Net Verif.Net.Spec Verif.Mesh Verif.Mesh.Spec Spec

/-- the weights from entry `i` to entry `j` in the containers -/
def win (c : Cfg) (θ : Mother → Vec ℝ) (fwd : Bool) (j i : Nat) : ℝ := θ (.inc (side c fwd)) (j * c.inputsize + i)
def wout (c : Cfg) (θ : Mother → Vec ℝ) (fwd : Bool) (j i : Nat) : ℝ := θ (.outc (side c fwd)) (j * c.hiddensize + i)
def wrec (c : Cfg) (θ : Mother → Vec ℝ) (fwd : Bool) (j i : Nat) : ℝ := θ (.recc (side c fwd)) (j * c.hiddensize + i)

/-- the elements of the sequence in the flat input -/
def element (c : Cfg) (x : Vec ℝ) (t i : Nat) : ℝ := x (c.inputsize * t + i)

/-- sizes for which a network can be built -/
structure Ok (c : Cfg) (T : Nat) : Prop where
  seq : c.seqlen = some T
  two : 2 ≤ T
  ins : 0 < c.inputsize
  outs : 0 < c.outputsize
  hid : 0 < c.hiddensize

/-- the network for `c`: built and sorted -/
def Built (c : Cfg) (name : Node → String) (N : Net Node Mother ℝ) : Prop := ∃ p, bidirectional c = .ok p ∧ p.sort name = .ok N

theorem inGrid_one (T i : Nat) (h : i < T) : InGrid [T] [i] := by
  unfold InGrid; exact List.Forall₂.cons h List.Forall₂.nil

theorem rowMajor_one (T i : Nat) : rowMajor [T] [i] = i := by simp [rowMajor]

theorem stepLinks_eq (c : Cfg) (T : Nat) (ing outg : Grid Node) (i : Nat)
    (hi : ing.lookup [i] = some (piece .inp c.inputsize c.inputsize i)) (ho : outg.lookup [i] = some (piece .out c.outputsize c.outputsize i)) :
    stepLinks c T ing outg i =
      [(Node.inp, fullConnection (Node.hid true i) (Mother.inc (side c true)) (c.inputsize * i) (c.inputsize * i + c.inputsize) 0 c.hiddensize),
       (Node.inp, fullConnection (Node.hid false i) (Mother.inc (side c false)) (c.inputsize * i) (c.inputsize * i + c.inputsize) 0 c.hiddensize),
       (Node.hid true i, fullConnection Node.out (Mother.outc (side c true)) 0 c.hiddensize (c.outputsize * i) (c.outputsize * i + c.outputsize)),
       (Node.hid false i, fullConnection Node.out (Mother.outc (side c false)) 0 c.hiddensize (c.outputsize * i) (c.outputsize * i + c.outputsize))] ++
      (if 0 < i then [(Node.hid true (i - 1), fullConnection (Node.hid true i) (Mother.recc (side c true)) 0 c.hiddensize 0 c.hiddensize)] else []) ++
      (if i + 1 < T then [(Node.hid false (i + 1), fullConnection (Node.hid false i) (Mother.recc (side c false)) 0 c.hiddensize 0 c.hiddensize)] else []) := by
  have e1 : ∀ a b : Nat, ((a : Int) * (b : Int)).toNat = a * b := by
    intro a b
    rw [← Int.natCast_mul, Int.toNat_natCast]
  have e2 : ∀ a b k : Nat, ((a : Int) * (b : Int) + k).toNat = a * b + k := by
    intro a b k
    rw [← Int.natCast_mul, ← Int.natCast_add, Int.toNat_natCast]
  unfold stepLinks
  simp only [Grid.at, hi, ho, Option.getD_some, sharedFull, piece, hidRef, whole, e1, e2, Int.toNat_zero, zero_add, Int.toNat_natCast]

/-- what the connections of time step `i` contribute to the input of the module `n` -/
theorem step_into (c : Cfg) (T : Nat) (ing outg : Grid Node) (i : Nat)
    (hi : ing.lookup [i] = some (piece .inp c.inputsize c.inputsize i)) (ho : outg.lookup [i] = some (piece .out c.outputsize c.outputsize i))
    (θ : Mother → Vec ℝ) (outb : Node → Vec ℝ) (n : Node) (j : Nat) :
    ((stepLinks c T ing outg i).map (fun a => if a.2.outmod = n then signal θ (outb a.1) a.2 j else 0)).sum =
      (if Node.hid true i = n then (if j < c.hiddensize then (∑ k ∈ Finset.range c.inputsize, win c θ true j k * outb .inp (c.inputsize * i + k)) +
        (if 0 < i then ∑ k ∈ Finset.range c.hiddensize, wrec c θ true j k * outb (.hid true (i - 1)) k else 0) else 0) else 0) +
      (if Node.hid false i = n then (if j < c.hiddensize then (∑ k ∈ Finset.range c.inputsize, win c θ false j k * outb .inp (c.inputsize * i + k)) +
        (if i + 1 < T then ∑ k ∈ Finset.range c.hiddensize, wrec c θ false j k * outb (.hid false (i + 1)) k else 0) else 0) else 0) +
      (if Node.out = n then (if c.outputsize * i ≤ j ∧ j < c.outputsize * i + c.outputsize then
        (∑ k ∈ Finset.range c.hiddensize, wout c θ true (j - c.outputsize * i) k * outb (.hid true i) k) +
        ∑ k ∈ Finset.range c.hiddensize, wout c θ false (j - c.outputsize * i) k * outb (.hid false i) k else 0) else 0) := by
  rw [stepLinks_eq c T ing outg i hi ho]
  have e1 : ∀ b, signal θ (outb .inp) (fullConnection (Node.hid b i) (Mother.inc (side c b)) (c.inputsize * i) (c.inputsize * i + c.inputsize) 0 c.hiddensize) j =
      if j < c.hiddensize then ∑ k ∈ Finset.range c.inputsize, win c θ b j k * outb .inp (c.inputsize * i + k) else 0 := by
    intro b
    rw [signal_full]
    simp only [Nat.zero_le, true_and, Nat.add_sub_cancel_left, Nat.sub_zero]
    rfl
  have e2 : ∀ b, signal θ (outb (.hid b i)) (fullConnection Node.out (Mother.outc (side c b)) 0 c.hiddensize (c.outputsize * i) (c.outputsize * i + c.outputsize)) j =
      if c.outputsize * i ≤ j ∧ j < c.outputsize * i + c.outputsize then
        ∑ k ∈ Finset.range c.hiddensize, wout c θ b (j - c.outputsize * i) k * outb (.hid b i) k else 0 := by
    intro b
    rw [signal_full]
    simp only [Nat.sub_zero, Nat.zero_add]
    rfl
  have e3 : ∀ b m, signal θ (outb (.hid b m)) (fullConnection (Node.hid b i) (Mother.recc (side c b)) 0 c.hiddensize 0 c.hiddensize) j =
      if j < c.hiddensize then ∑ k ∈ Finset.range c.hiddensize, wrec c θ b j k * outb (.hid b m) k else 0 := by
    intro b m
    rw [signal_full]
    simp only [Nat.zero_le, true_and, Nat.zero_add, Nat.sub_zero]
    rfl
  have o1 : ∀ (o : Node) (pc : Mother) (a b c d : Nat), (fullConnection o pc a b c d).outmod = o := fun _ _ _ _ _ _ => rfl
  have c1 : ((if 0 < i then [(Node.hid true (i - 1), fullConnection (Node.hid true i) (Mother.recc (side c true)) 0 c.hiddensize 0 c.hiddensize)] else []).map
      (fun a : Node × Conn Node Mother ℝ => if a.2.outmod = n then signal θ (outb a.1) a.2 j else 0)).sum =
      if Node.hid true i = n then (if j < c.hiddensize then (if 0 < i then ∑ k ∈ Finset.range c.hiddensize, wrec c θ true j k * outb (.hid true (i - 1)) k else 0) else 0) else 0 := by
    split
    · simp only [List.map_cons, List.map_nil, List.sum_cons, List.sum_nil, o1, e3, add_zero]
    · simp
  have c2 : ((if i + 1 < T then [(Node.hid false (i + 1), fullConnection (Node.hid false i) (Mother.recc (side c false)) 0 c.hiddensize 0 c.hiddensize)] else []).map
      (fun a : Node × Conn Node Mother ℝ => if a.2.outmod = n then signal θ (outb a.1) a.2 j else 0)).sum =
      if Node.hid false i = n then (if j < c.hiddensize then (if i + 1 < T then ∑ k ∈ Finset.range c.hiddensize, wrec c θ false j k * outb (.hid false (i + 1)) k else 0) else 0) else 0 := by
    split
    · simp only [List.map_cons, List.map_nil, List.sum_cons, List.sum_nil, o1, e3, add_zero]
    · simp
  rw [List.map_append, List.sum_append, List.map_append, List.sum_append, c1, c2]
  simp only [List.map_cons, List.map_nil, List.sum_cons, List.sum_nil, o1, e1, e2, add_zero]
  have s1 : ∀ (p q : Prop) [Decidable p] [Decidable q] (a b : ℝ), (if p then (if q then a + b else 0) else 0) = (if p then (if q then a else 0) else 0) + (if p then (if q then b else 0) else 0) := by
    intro p q _ _ a b
    split <;> [split; skip] <;> simp
  rw [s1, s1, s1]
  ring

def nodes (T : Nat) : List Node := [.inp, .out] ++ (List.range T).map (Node.hid true) ++ (List.range T).map (Node.hid false)

theorem mem_nodes (T : Nat) (b : Bool) (i : Nat) (hi : i < T) : Node.hid b i ∈ nodes T := by
  cases b <;> simp [nodes, hi]

theorem nodup_nodes (T : Nat) : (nodes T).Nodup := by
  have inj : ∀ b, Function.Injective (Node.hid b) := fun b x y h => by simpa using h
  unfold nodes
  refine List.nodup_append.2 ⟨List.nodup_append.2 ⟨by decide, (List.nodup_range).map (inj _), ?_⟩, (List.nodup_range).map (inj _), ?_⟩
  · intro a ha b hb e
    subst e
    simp only [List.mem_map] at hb
    obtain ⟨_, _, rfl⟩ := hb
    simp at ha
  · intro a ha b hb e
    subst e
    simp only [List.mem_map] at hb
    obtain ⟨_, _, rfl⟩ := hb
    simp at ha

def rank (T : Nat) : Node → Nat
  | .inp => 0
  | .hid true i => i + 1
  | .hid false i => T - 1 - i + 1
  | .out => T + 1

theorem build_ok (c : Cfg) (T : Nat) (ok : Ok c T) : ∃ ing outg : Grid Node,
    (∀ i < T, ing.lookup [i] = some (piece .inp c.inputsize c.inputsize i)) ∧ (∀ i < T, outg.lookup [i] = some (piece .out c.outputsize c.outputsize i)) ∧
    bidirectional c = .ok { modules := nodes T, mod := module c T, links := (List.range T).flatMap (stepLinks c T ing outg), inmods := [.inp], outmods := [.out] } := by
  have h2 := ok.two
  have hz : 0 ∉ [T] := by simp; omega
  have h1 : ∃ d ∈ [T], 1 < d := ⟨T, by simp, by omega⟩
  obtain ⟨g, hg, hgl, _⟩ := view_ok Node.inp c.inputsize c.inputsize [T] (by simp) hz h1 (by have := ok.ins; omega)
  obtain ⟨g', hg', hgl', _⟩ := view_ok Node.out c.outputsize c.outputsize [T] (by simp) hz h1 (by have := ok.outs; omega)
  have hp : [T].prod = T := by simp
  rw [hp] at hg hg'
  refine ⟨g, g', fun i hi => by have := hgl [i] (inGrid_one T i hi); rwa [rowMajor_one] at this, fun i hi => by have := hgl' [i] (inGrid_one T i hi); rwa [rowMajor_one] at this, ?_⟩
  have hn : ¬ (c.inputsize * c.hiddensize = 0 ∨ c.outputsize * c.hiddensize = 0 ∨ c.hiddensize * c.hiddensize = 0) := by
    have h1 := Nat.mul_pos ok.ins ok.hid
    have h2 := Nat.mul_pos ok.outs ok.hid
    have h3 := Nat.mul_pos ok.hid ok.hid
    omega
  simp only [bidirectional, ok.seq, hg, hg']
  rw [if_neg hn]
  rfl

theorem good (c : Cfg) (T : Nat) (ing outg : Grid Node)
    (hi : ∀ i < T, ing.lookup [i] = some (piece .inp c.inputsize c.inputsize i)) (ho : ∀ i < T, outg.lookup [i] = some (piece .out c.outputsize c.outputsize i)) :
    Plan.Good { modules := nodes T, mod := module c T, links := (List.range T).flatMap (stepLinks c T ing outg), inmods := [.inp], outmods := [.out] } (rank T) := by
  have key : ∀ a ∈ (List.range T).flatMap (stepLinks c T ing outg), (a.1 ∈ nodes T ∧ a.2.outmod ∈ nodes T) ∧ rank T a.1 < rank T a.2.outmod ∧
      (a.2.inFrom ≤ a.2.inTo ∧ a.2.inTo ≤ (module c T a.1).outdim) ∧ (a.2.outFrom ≤ a.2.outTo ∧ a.2.outTo ≤ (module c T a.2.outmod).indim) := by
    intro a ha
    obtain ⟨i, hiT, ha⟩ := List.mem_flatMap.1 ha
    have hiT := List.mem_range.1 hiT
    rw [stepLinks_eq c T ing outg i (hi i hiT) (ho i hiT)] at ha
    have hle : ∀ k, k * i + k ≤ k * T := fun k => by
      calc k * i + k = k * (i + 1) := by ring
        _ ≤ k * T := Nat.mul_le_mul_left k hiT
    have m1 : Node.inp ∈ nodes T := by simp [nodes]
    have m2 : Node.out ∈ nodes T := by simp [nodes]
    have mh : ∀ b k, k < T → Node.hid b k ∈ nodes T := fun b k => mem_nodes T b k
    simp only [List.mem_append, List.mem_cons, List.not_mem_nil, or_false] at ha
    rcases ha with ((rfl | rfl | rfl | rfl) | ha) | ha
    · exact ⟨⟨m1, mh _ _ hiT⟩, by simp [rank, fullConnection], ⟨by simp [fullConnection], hle _⟩, ⟨by simp [fullConnection], le_rfl⟩⟩
    · exact ⟨⟨m1, mh _ _ hiT⟩, by simp [rank, fullConnection], ⟨by simp [fullConnection], hle _⟩, ⟨by simp [fullConnection], le_rfl⟩⟩
    · exact ⟨⟨mh _ _ hiT, m2⟩, by simp only [rank, fullConnection]; omega, ⟨by simp [fullConnection], le_rfl⟩, ⟨by simp [fullConnection], hle _⟩⟩
    · exact ⟨⟨mh _ _ hiT, m2⟩, by simp only [rank, fullConnection]; omega, ⟨by simp [fullConnection], le_rfl⟩, ⟨by simp [fullConnection], hle _⟩⟩
    · split at ha
      · simp only [List.mem_cons, List.not_mem_nil, or_false] at ha
        subst ha
        exact ⟨⟨mh _ _ (by omega), mh _ _ hiT⟩, by simp only [rank, fullConnection]; omega, ⟨by simp [fullConnection], le_rfl⟩, ⟨by simp [fullConnection], le_rfl⟩⟩
      · simp at ha
    · split at ha
      · simp only [List.mem_cons, List.not_mem_nil, or_false] at ha
        subst ha
        exact ⟨⟨mh _ _ (by omega), mh _ _ hiT⟩, by simp only [rank, fullConnection]; omega, ⟨by simp [fullConnection], le_rfl⟩, ⟨by simp [fullConnection], le_rfl⟩⟩
      · simp at ha
  exact
    { nodup := nodup_nodes T, insNodup := by simp, outsNodup := by simp
      ins := by simp [nodes], outs := by simp [nodes]
      src := fun a ha => (key a ha).1.1, dst := fun a ha => (key a ha).1.2
      rank := fun a ha => (key a ha).2.1, inSlice := fun a ha => (key a ha).2.2.1, outSlice := fun a ha => (key a ha).2.2.2 }

/-- building, sorting and activating -/
theorem run (c : Cfg) (T : Nat) (ok : Ok c T) (name : Node → String) :
    ∃ p N, bidirectional c = .ok p ∧ p.sort name = .ok N ∧ WF N ∧ ∀ (θ : Mother → Vec ℝ) (b : Bufs Node Mother ℝ) (x : Vec ℝ),
      ∀ t < T, ∀ j < c.outputsize, (activate N θ b x).2 (c.outputsize * t + j) =
        output c.f c.g c.inputsize c.hiddensize T (win c θ) (wrec c θ) (wout c θ) (element c x) t j := by
  obtain ⟨ing, outg, hi, ho, hb⟩ := build_ok c T ok
  obtain ⟨N, hN, wf, hrun⟩ := plan_run _ (rank T) (good c T ing outg hi ho) name
  refine ⟨_, N, hb, hN, wf, fun θ b x t ht j hj => ?_⟩
  obtain ⟨inb, outb, h1, h2, h3⟩ := hrun θ b x
  have bound : ∀ a i k : Nat, i < T → k < a → a * i + k < a * T := by
    intro a i k hi hk
    calc a * i + k < a * (i + 1) := by rw [Nat.mul_add]; omega
      _ ≤ _ := Nat.mul_le_mul_left _ hi
  have hsum : ∀ n j, (((List.range T).flatMap (stepLinks c T ing outg)).map (fun a => if a.2.outmod = n then signal θ (outb a.1) a.2 j else 0)).sum =
      ∑ i ∈ Finset.range T, ((stepLinks c T ing outg i).map (fun a => if a.2.outmod = n then signal θ (outb a.1) a.2 j else 0)).sum := by
    intro n j
    rw [sum_flatMap, sum_range]
  -- the input layer
  have hin : ∀ k, k < c.inputsize * T → outb .inp k = x k := by
    intro k hk
    rw [h2 .inp (by simp [nodes])]
    have e : inb .inp k = x k := by
      rw [h1 .inp (by simp [nodes]) k, hsum, Finset.sum_eq_zero]
      · have e1 : (module c T Node.inp).indim = c.inputsize * T := rfl
        simp only [share, if_true, tr, e1, hk, add_zero]
      · intro i hi'
        have hi' := Finset.mem_range.1 hi'
        rw [step_into c T ing outg i (hi i hi') (ho i hi'), if_neg (by simp), if_neg (by simp), if_neg (by simp)]
        simp
    show tr (c.inputsize * T) (inb .inp) k = x k
    simp only [tr, hk, if_true, e]
  have hel : ∀ i < T, ∀ b j, (∑ k ∈ Finset.range c.inputsize, win c θ b j k * outb .inp (c.inputsize * i + k)) =
      ∑ k ∈ Finset.range c.inputsize, win c θ b j k * element c x i k := by
    intro i hi' b j
    refine Finset.sum_congr rfl fun k hk => ?_
    rw [hin _ (bound _ i k hi' (Finset.mem_range.1 hk))]
    rfl
  -- the hidden layers
  have hpt : ∀ b i, i < T → ∀ j < c.hiddensize, outb (.hid b i) j = c.f (inb (.hid b i) j) := by
    intro b i hi' j hj
    rw [h2 _ (mem_nodes T b i hi')]
    show tr c.hiddensize (fun j => c.f (inb (.hid b i) j)) j = _
    simp only [tr, hj, if_true]
  have hf : ∀ i < T, ∀ j < c.hiddensize, outb (.hid true i) j = c.f ((∑ k ∈ Finset.range c.inputsize, win c θ true j k * element c x i k) +
      if 0 < i then ∑ k ∈ Finset.range c.hiddensize, wrec c θ true j k * outb (.hid true (i - 1)) k else 0) := by
    intro i hi' j hj
    rw [hpt true i hi' j hj, h1 _ (mem_nodes T true i hi') j, hsum]
    have e0 : share (fun m => (module c T m).indim) [Node.inp] x (Node.hid true i) j = 0 := by simp [share]
    rw [e0, zero_add, Finset.sum_eq_single i]
    · rw [step_into c T ing outg i (hi i hi') (ho i hi'), if_pos rfl, if_pos hj, if_neg (show ¬ Node.hid false i = Node.hid true i by simp),
        if_neg (show ¬ Node.out = Node.hid true i by simp), add_zero, add_zero, hel i hi']
    · intro i' hi'' hne
      have hi'' := Finset.mem_range.1 hi''
      rw [step_into c T ing outg i' (hi i' hi'') (ho i' hi''), if_neg (by simpa using hne), if_neg (by simp), if_neg (by simp)]
      simp
    · intro h; exact absurd (Finset.mem_range.2 hi') h
  have hbk : ∀ i < T, ∀ j < c.hiddensize, outb (.hid false i) j = c.f ((∑ k ∈ Finset.range c.inputsize, win c θ false j k * element c x i k) +
      if i + 1 < T then ∑ k ∈ Finset.range c.hiddensize, wrec c θ false j k * outb (.hid false (i + 1)) k else 0) := by
    intro i hi' j hj
    rw [hpt false i hi' j hj, h1 _ (mem_nodes T false i hi') j, hsum]
    have e0 : share (fun m => (module c T m).indim) [Node.inp] x (Node.hid false i) j = 0 := by simp [share]
    rw [e0, zero_add, Finset.sum_eq_single i]
    · rw [step_into c T ing outg i (hi i hi') (ho i hi'), if_neg (show ¬ Node.hid true i = Node.hid false i by simp), if_pos rfl, if_pos hj,
        if_neg (show ¬ Node.out = Node.hid false i by simp), add_zero, zero_add, hel i hi']
    · intro i' hi'' hne
      have hi'' := Finset.mem_range.1 hi''
      rw [step_into c T ing outg i' (hi i' hi'') (ho i' hi''), if_neg (by simp), if_neg (by simpa using hne), if_neg (by simp)]
      simp
    · intro h; exact absurd (Finset.mem_range.2 hi') h
  have hF : ∀ i, i < T → ∀ j < c.hiddensize, outb (.hid true i) j = states c.f c.inputsize c.hiddensize (win c θ true) (wrec c θ true) (element c x) i j := by
    intro i
    induction i with
    | zero => intro hi' j hj; rw [hf 0 hi' j hj, if_neg (by omega), add_zero, states]
    | succ i ih =>
      intro hi' j hj
      rw [hf _ hi' j hj, if_pos (by omega), states, Nat.add_sub_cancel]
      congr 2
      exact Finset.sum_congr rfl fun k hk => by rw [ih (by omega) k (Finset.mem_range.1 hk)]
  have hB : ∀ i, i < T → ∀ j < c.hiddensize, outb (.hid false (T - 1 - i)) j =
      states c.f c.inputsize c.hiddensize (win c θ false) (wrec c θ false) (fun k => element c x (T - 1 - k)) i j := by
    intro i
    induction i with
    | zero => intro hi' j hj; rw [hbk _ (by omega) j hj, if_neg (by omega), add_zero, states]
    | succ i ih =>
      intro hi' j hj
      rw [hbk _ (by omega) j hj, if_pos (by omega), states]
      congr 2
      refine Finset.sum_congr rfl fun k hk => ?_
      rw [show T - 1 - (i + 1) + 1 = T - 1 - i by omega, ih (by omega) k (Finset.mem_range.1 hk)]
  -- the output layer
  have hlt := bound c.outputsize t j ht hj
  have hmem : Node.out ∈ nodes T := by simp [nodes]
  rw [h3]
  have hc : concat (fun m => (module c T m).outdim) [Node.out] outb (c.outputsize * t + j) = outb .out (c.outputsize * t + j) := if_pos hlt
  refine hc.trans ?_
  have hg : outb .out (c.outputsize * t + j) = c.g (inb .out (c.outputsize * t + j)) := by
    rw [h2 .out hmem]
    show tr (c.outputsize * T) (fun j => c.g (inb .out j)) _ = _
    simp only [tr, hlt, if_true]
  rw [hg]
  unfold output
  congr 1
  rw [h1 _ hmem _, hsum]
  have e0 : share (fun m => (module c T m).indim) [Node.inp] x Node.out (c.outputsize * t + j) = 0 := by simp [share]
  rw [e0, zero_add, Finset.sum_eq_single t]
  · rw [step_into c T ing outg t (hi t ht) (ho t ht), if_neg (by simp), if_neg (by simp), if_pos rfl, if_pos ⟨by omega, by omega⟩, zero_add, zero_add,
      Nat.add_sub_cancel_left]
    congr 1
    · exact Finset.sum_congr rfl fun k hk => by rw [hF t ht k (Finset.mem_range.1 hk)]
    · refine Finset.sum_congr rfl fun k hk => ?_
      rw [← hB (T - 1 - t) (by omega) k (Finset.mem_range.1 hk), show T - 1 - (T - 1 - t) = t by omega]
  · intro i hi' hne
    have hi' := Finset.mem_range.1 hi'
    rw [step_into c T ing outg i (hi i hi') (ho i hi'), if_neg (by simp), if_neg (by simp), if_pos rfl, if_neg, add_zero, add_zero]
    rintro ⟨ha, hb⟩
    apply hne
    have h1 : i < t + 1 := by
      by_contra hcon
      have := Nat.mul_le_mul_left c.outputsize (not_lt.1 hcon)
      rw [Nat.mul_add] at this
      omega
    have h2 : t < i + 1 := by
      by_contra hcon
      have := Nat.mul_le_mul_left c.outputsize (not_lt.1 hcon)
      rw [Nat.mul_add] at this
      omega
    omega
  · intro h; exact absurd (Finset.mem_range.2 ht) h

theorem states_congr (f : ℝ → ℝ) (n h : Nat) (wi wr : Nat → Nat → ℝ) (x x' : Nat → Nat → ℝ) : ∀ t, (∀ k ≤ t, ∀ i < n, x k i = x' k i) →
    ∀ j, states f n h wi wr x t j = states f n h wi wr x' t j := by
  intro t
  induction t with
  | zero =>
    intro hx j
    simp only [states]
    congr 1
    exact Finset.sum_congr rfl fun i hi => by rw [hx 0 le_rfl i (Finset.mem_range.1 hi)]
  | succ t ih =>
    intro hx j
    simp only [states]
    congr 2
    · exact Finset.sum_congr rfl fun i hi => by rw [hx (t + 1) le_rfl i (Finset.mem_range.1 hi)]
    · exact Finset.sum_congr rfl fun i _ => by rw [ih (fun k hk => hx k (by omega)) i]

def small : Cfg := { seqlen := some 3, inputsize := 2, outputsize := 1, hiddensize := 4, symmetric := true, f := id, g := id }

theorem small_ok : Ok small 3 := ⟨rfl, by norm_num, by norm_num [small], by norm_num [small], by norm_num [small]⟩

end Verif.Bidir

namespace Verif.Props
open Verif.Net Verif.Net.Spec Verif.Mesh Verif.Bidir Verif.Bidir.Spec

/-- **C109, output.** For every sequence length of at least 2, a bidirectional network can be built and put into a feed-forward order, and the output at each position is
computed from the states of two recurrent layers there: one has read the sequence from the start up to this position, the other one from the end. -/
theorem C109_output (c : Cfg) (T : Nat) (ok : Bidir.Ok c T) (name : Bidir.Node → String) :
    ∃ N, Bidir.Built c name N ∧ WF N ∧ ∀ (θ : Bidir.Mother → Vec ℝ) (b : Bufs Bidir.Node Bidir.Mother ℝ) (x : Vec ℝ), ∀ t < T, ∀ j < c.outputsize,
      (activate N θ b x).2 (c.outputsize * t + j) =
        output c.f c.g c.inputsize c.hiddensize T (win c θ) (wrec c θ) (wout c θ) (element c x) t j := by
  obtain ⟨p, N, h1, h2, h3, h4⟩ := Bidir.run c T ok name
  exact ⟨N, ⟨p, h1, h2⟩, h3, h4⟩

example : Bidir.Ok Bidir.small 3 := Bidir.small_ok

/-- **C109, reversal.** With symmetric weights, reversing the sequence of inputs reverses the sequence of outputs. -/
theorem C109_reversal (c : Cfg) (T : Nat) (ok : Bidir.Ok c T) (sym : c.symmetric = true) (name : Bidir.Node → String) (N : Net.Net Bidir.Node Bidir.Mother ℝ)
    (hN : Bidir.Built c name N) (θ : Bidir.Mother → Vec ℝ) (b b' : Bufs Bidir.Node Bidir.Mother ℝ) (x x' : Vec ℝ)
    (hx : ∀ t < T, ∀ i < c.inputsize, x' (c.inputsize * t + i) = x (c.inputsize * (T - 1 - t) + i)) :
    ∀ t < T, ∀ j < c.outputsize, (activate N θ b' x').2 (c.outputsize * t + j) = (activate N θ b x).2 (c.outputsize * (T - 1 - t) + j) := by
  intro t ht j hj
  obtain ⟨p, N', h1, h2, _, h4⟩ := Bidir.run c T ok name
  obtain ⟨p', g1, g2⟩ := hN
  rw [h1] at g1; cases g1
  rw [h2] at g2; cases g2
  rw [h4 θ b' x' t ht j hj, h4 θ b x (T - 1 - t) (by omega) j hj]
  have w1 : win c θ false = win c θ true := by funext j i; simp [win, side, sym]
  have w2 : wout c θ false = wout c θ true := by funext j i; simp [wout, side, sym]
  have w3 : wrec c θ false = wrec c θ true := by funext j i; simp [wrec, side, sym]
  unfold output
  rw [w1, w2, w3, add_comm]
  congr 2
  · refine Finset.sum_congr rfl fun i _ => ?_
    congr 1
    refine states_congr _ _ _ _ _ _ _ _ (fun k hk i hi => ?_) i
    have := hx (T - 1 - k) (by omega) i hi
    simp only [element]
    rw [this, show T - 1 - (T - 1 - k) = k by omega]
  · refine Finset.sum_congr rfl fun i _ => ?_
    rw [show T - 1 - (T - 1 - t) = t by omega]
    congr 1
    refine states_congr _ _ _ _ _ _ _ _ (fun k hk i hi => ?_) i
    exact hx k (by omega) i hi

/-- **C109, partial sequences.** The forward state at a position depends on the inputs up to it only: if the backward layer has no influence on the outputs (its output weights are 0),
the output at a position is the same for all sequences that agree up to this position. -/
theorem C109_causal (c : Cfg) (T : Nat) (ok : Bidir.Ok c T) (name : Bidir.Node → String) (N : Net.Net Bidir.Node Bidir.Mother ℝ)
    (hN : Bidir.Built c name N) (θ : Bidir.Mother → Vec ℝ) (b b' : Bufs Bidir.Node Bidir.Mother ℝ) (x x' : Vec ℝ) (t : Nat) (ht : t < T)
    (sym : c.symmetric = false) (h0 : ∀ k, θ (.outc false) k = 0) (hx : ∀ k < c.inputsize * (t + 1), x k = x' k) :
    ∀ j < c.outputsize, (activate N θ b x).2 (c.outputsize * t + j) = (activate N θ b' x').2 (c.outputsize * t + j) := by
  intro j hj
  obtain ⟨p, N', h1, h2, _, h4⟩ := Bidir.run c T ok name
  obtain ⟨p', g1, g2⟩ := hN
  rw [h1] at g1; cases g1
  rw [h2] at g2; cases g2
  rw [h4 θ b x t ht j hj, h4 θ b' x' t ht j hj]
  have w : ∀ i, wout c θ false j i = 0 := fun i => by simp [wout, side, sym, h0]
  unfold output
  simp only [w, zero_mul, Finset.sum_const_zero, add_zero]
  congr 1
  refine Finset.sum_congr rfl fun i _ => ?_
  congr 1
  refine states_congr _ _ _ _ _ _ _ _ (fun k hk i hi => hx _ ?_) i
  calc c.inputsize * k + i < c.inputsize * (k + 1) := by rw [Nat.mul_add]; omega
    _ ≤ _ := Nat.mul_le_mul_left _ (by omega)

/-- **C109, negation (sequences of length 1).** A network for sequences of length 1 cannot be built: it raises an AssertionError, for all sizes, although two states and
an output are defined for it. (Without a sequence length the AssertionError is documented.) -/
theorem C109_negation_length (c : Cfg) : (c.seqlen = some 1 → bidirectional c = .error .assertion) ∧ (c.seqlen = none → bidirectional c = .error .assertion) := by
  constructor
  · intro h
    have : viewOnFlatLayer (whole Bidir.Node.inp (c.inputsize * 1) (c.inputsize * 1)) [1] = .error .assertion := by
      unfold viewOnFlatLayer
      rw [if_neg (by simp), if_pos (by simp)]
    simp only [bidirectional, h, this]
  · intro h
    simp only [bidirectional, h]

end Verif.Props

import Verif.Model.PSO
import Mathlib.Algebra.Order.Ring.Rat
import Mathlib.Algebra.Module.Rat
import Mathlib.Algebra.Order.Field.Basic
import Mathlib.Tactic.Linarith
/-
C81: particle swarm optimization.
-/
namespace Verif.PSO
open Verif.DataSet (Err)

variable {K V : Type} [Field K] [LinearOrder K] [AddCommGroup V] [Module K V]

/-- The current position of a particle of the swarm. -/
def pos (ps : List (Particle K V)) (i : Nat) : V := ((ps[i]?).map Particle.position).getD 0

/-- `x` is at least as good as `y`. -/
def AtLeast (minimize : Bool) (x y : K) : Prop := if minimize then x ≤ y else y ≤ x
/-- `x` is better than `y`. -/
def Better (minimize : Bool) (x y : K) : Prop := if minimize then x < y else y < x

omit [Field K] [AddCommGroup V] [Module K V] in
theorem best_spec (minimize : Bool) (fitness : Nat → K) (is : List Nat) (h : is ≠ []) :
    ∃ b ∈ is, best minimize fitness is = .ok b ∧ ∀ j ∈ is, AtLeast minimize (fitness b) (fitness j) := by
  obtain ⟨i, js, rfl⟩ := List.exists_cons_of_ne_nil h
  suffices key : ∀ (js : List Nat) (i : Nat) (seen : List Nat), i ∈ seen → (∀ j ∈ seen, AtLeast minimize (fitness i) (fitness j)) →
      let b := js.foldl (fun b j => if (if minimize then fitness j < fitness b else fitness b < fitness j) then j else b) i
      b ∈ seen ++ js ∧ ∀ j ∈ seen ++ js, AtLeast minimize (fitness b) (fitness j) by
    have := key js i [i] (by simp) (by simp [AtLeast])
    exact ⟨_, by simpa using this.1, rfl, by simpa using this.2⟩
  intro js
  induction js with
  | nil => intro i seen h1 h2; simpa using ⟨h1, h2⟩
  | cons j js ih =>
    intro i seen h1 h2
    dsimp only
    rw [List.foldl_cons, show seen ++ j :: js = (seen ++ [j]) ++ js by simp]
    apply ih
    · split_ifs <;> simp [h1]
    · intro k hk
      simp only [List.mem_append, List.mem_singleton] at hk
      cases minimize <;> simp only [Bool.false_eq_true, if_false, if_true, AtLeast] at h2 ⊢ <;> split_ifs with hlt <;> rcases hk with hk | rfl
      all_goals first
        | exact le_refl _
        | exact le_trans (h2 k hk) hlt.le
        | exact le_trans hlt.le (h2 k hk)
        | exact h2 k hk
        | exact not_lt.1 hlt

theorem moveFrom_spec (c : Settings K) (nb : Nat → List Nat) (fit : Nat → K) (r1 r2 : Nat → K) : ∀ (k a : Nat) (ps : List (Particle K V)), a + k ≤ ps.length →
    (∀ i < ps.length, nb i ≠ [] ∧ ∀ j ∈ nb i, j < ps.length) →
    ∃ ps', moveFrom c nb fit r1 r2 a k ps = .ok ps' ∧ ps'.length = ps.length ∧ (∀ i, i < a ∨ a + k ≤ i → ps'[i]? = ps[i]?) ∧
      ∀ i, a ≤ i → i < a + k → ∀ p, ps[i]? = some p → ∃ b ∈ nb i, best c.minimize fit (nb i) = .ok b ∧
        ps'[i]? = some (moved c (r1 i) (r2 i) (if b < i then pos ps' b else pos ps b) p)
  | 0, a, ps, _, _ => ⟨ps, rfl, rfl, fun _ _ => rfl, fun i h1 h2 => by omega⟩
  | k + 1, a, ps, h, hn => by
    have ha : a < ps.length := by omega
    obtain ⟨b, b1, b2, b3⟩ := best_spec c.minimize fit (nb a) (hn a ha).1
    have hb : b < ps.length := (hn a ha).2 b b1
    obtain ⟨ps', h1, h2, h3, h4⟩ := moveFrom_spec c nb fit r1 r2 k (a + 1) (ps.set a (moved c (r1 a) (r2 a) ps[b].position ps[a])) (by simp; omega)
      (by simpa using hn)
    have hpos : pos ps b = ps[b].position := by simp [pos, hb]
    refine ⟨ps', ?_, by rw [h2]; simp, fun i hi => ?_, fun i i1 i2 p hp => ?_⟩
    · rw [moveFrom, List.getElem?_eq_getElem ha, b2]
      simp only [List.getElem?_eq_getElem hb]
      exact h1
    · rw [h3 i (by omega), List.getElem?_set_ne (by omega)]
    · by_cases hia : i = a
      · subst hia
        refine ⟨b, b1, b2, ?_⟩
        have hpe : ps[i] = p := by rw [List.getElem?_eq_getElem ha] at hp; exact Option.some.inj hp
        rw [h3 i (by omega), List.getElem?_set_self ha, hpe]
        congr 2
        split_ifs with hlt
        · rw [pos, h3 b (by omega), List.getElem?_set_ne (by omega), ← hpos]; rfl
        · exact hpos.symm
      · obtain ⟨b', c1, c2, c3⟩ := h4 i (by omega) (by omega) p (by rw [List.getElem?_set_ne (by omega)]; exact hp)
        refine ⟨b', c1, c2, ?_⟩
        rw [c3]
        congr 2
        split_ifs with hlt
        · rfl
        · rw [pos, List.getElem?_set_ne (by omega)]; rfl

/-- The neighbourhood names existing particles and at least one for each. -/
def ValidNeighbours (n : Nat) (nb : Nat → List Nat) : Prop := ∀ i < n, nb i ≠ [] ∧ ∀ j ∈ nb i, j < n

/-- Several learning steps with their random numbers: the swarms before each step, and the last one. -/
def run (c : Settings K) (nb : Nat → List Nat) (f : V → K) : List ((Nat → K) × (Nat → K)) → List (Particle K V) → Except Err (List (List (Particle K V)) × List (Particle K V))
  | [], ps => .ok ([], ps)
  | r :: rs, ps =>
    match learnStep c nb f r.1 r.2 ps with
    | .error e => .error e
    | .ok ps1 =>
      match run c nb f rs ps1 with
      | .error e => .error e
      | .ok (before, ps2) => .ok (ps :: before, ps2)

/-- What a particle remembers after it was evaluated at the positions `xs`: the first best of them. -/
def Remembers (minimize : Bool) (f : V → K) (xs : List V) (p : Particle K V) : Prop :=
  match p.bestFitness with
  | none => xs = []
  | some y => ∃ t, ∃ h : t < xs.length, p.bestPosition = xs[t] ∧ y = f xs[t] ∧ (∀ s (hs : s < xs.length), AtLeast minimize y (f xs[s])) ∧
      ∀ s (hs : s < t), Better minimize y (f (xs[s]'(by omega)))

theorem setFitness_position (m : Bool) (p : Particle K V) (v : K) : (setFitness m p v).position = p.position := by
  unfold setFitness; dsimp only; split_ifs <;> rfl

theorem setFitness_remembers (m : Bool) (f : V → K) (xs : List V) (p : Particle K V) (h : Remembers m f xs p) :
    Remembers m f (xs ++ [p.position]) (setFitness m p (f p.position)) := by
  unfold Remembers at h
  unfold setFitness
  dsimp only
  cases hb : p.bestFitness with
  | none =>
    rw [hb] at h
    dsimp only at h
    subst h
    simp only [if_true, Remembers]
    refine ⟨0, by simp, by simp, by simp, ?_, by omega⟩
    intro s hs
    have : s = 0 := by simpa using hs
    subst this
    simp [AtLeast]
  | some b =>
    rw [hb] at h
    dsimp only at h ⊢
    obtain ⟨t, ht, h1, h2, h3, h4⟩ := h
    have hlast : (xs ++ [p.position])[xs.length]'(by simp) = p.position := by simp
    by_cases hi : ((m && decide (f p.position < b)) || (!m && decide (b < f p.position))) = true
    · rw [if_pos hi]
      have hbet : Better m (f p.position) b := by cases m <;> simpa [Better] using hi
      have hall : ∀ s (hs : s < xs.length), Better m (f p.position) (f xs[s]) := by
        intro s hs
        have := h3 s hs
        cases m <;> simp only [Better, AtLeast, Bool.false_eq_true, if_false, if_true] at hbet this ⊢
        · exact lt_of_le_of_lt this hbet
        · exact lt_of_lt_of_le hbet this
      simp only [Remembers]
      refine ⟨xs.length, by simp, by simp, by simp, ?_, ?_⟩
      · intro s hs
        by_cases hs' : s < xs.length
        · rw [List.getElem_append_left hs']
          have := hall s hs'
          cases m <;> simp only [Better, AtLeast, Bool.false_eq_true, if_false, if_true] at this ⊢ <;> exact this.le
        · have : s = xs.length := by simp at hs; omega
          subst this
          rw [hlast]; cases m <;> simp [AtLeast]
      · intro s hs
        rw [List.getElem_append_left hs]
        exact hall s hs
    · rw [if_neg hi]
      simp only [Remembers, hb]
      refine ⟨t, by simp; omega, by rw [List.getElem_append_left ht]; exact h1, by rw [List.getElem_append_left ht]; exact h2, ?_, ?_⟩
      · intro s hs
        by_cases hs' : s < xs.length
        · rw [List.getElem_append_left hs']; exact h3 s hs'
        · have : s = xs.length := by simp at hs; omega
          subst this
          rw [hlast]
          cases m <;> simpa [AtLeast] using hi
      · intro s hs
        rw [List.getElem_append_left (by omega)]
        exact h4 s hs

/-- One learning step, in full. -/
theorem learnStep_spec (c : Settings K) (nb : Nat → List Nat) (f : V → K) (r1 r2 : Nat → K) (ps : List (Particle K V)) (hn : ValidNeighbours ps.length nb) :
    ∃ ps', learnStep c nb f r1 r2 ps = .ok ps' ∧ ps'.length = ps.length ∧
      ∀ i p, ps[i]? = some p → ∃ b ∈ nb i, (∀ j ∈ nb i, AtLeast c.minimize (f (pos ps b)) (f (pos ps j))) ∧
        ps'[i]? = some (moved c (r1 i) (r2 i) (if b < i then pos ps' b else pos ps b) (setFitness c.minimize p (f p.position))) := by
  have hl : (ps.map fun p => setFitness c.minimize p (f p.position)).length = ps.length := by simp
  obtain ⟨ps', h1, h2, h3, h4⟩ := moveFrom_spec c nb (fun i => ((ps[i]?).map fun p => f p.position).getD 0) r1 r2 ps.length 0
    (ps.map fun p => setFitness c.minimize p (f p.position)) (by simp) (by simpa [ValidNeighbours] using hn)
  refine ⟨ps', h1, by rw [h2, hl], fun i p hp => ?_⟩
  have hi : i < ps.length := (List.getElem?_eq_some_iff.1 hp).1
  obtain ⟨b, b1, b2, b3⟩ := h4 i (by omega) (by omega) (setFitness c.minimize p (f p.position)) (by simp [hp])
  have hfit : ∀ j ∈ nb i, ((ps[j]?).map fun p => f p.position).getD 0 = f (pos ps j) := by
    intro j hj
    have := (hn i hi).2 j hj
    simp [pos, this]
  obtain ⟨b', c1, c2, c3⟩ := best_spec c.minimize (fun i => ((ps[i]?).map fun p => f p.position).getD 0) (nb i) (hn i hi).1
  have : b' = b := by rw [b2] at c2; exact (Except.ok.inj c2).symm
  subst this
  refine ⟨b', b1, fun j hj => ?_, ?_⟩
  · have := c3 j hj
    rwa [hfit b' b1, hfit j hj] at this
  · rw [b3]
    congr 3
    simp only [pos, List.getElem?_map, Option.map_map]
    congr 2
    funext q
    exact setFitness_position _ _ _

theorem run_spec (c : Settings K) (nb : Nat → List Nat) (f : V → K) : ∀ (rs : List ((Nat → K) × (Nat → K))) (ps : List (Particle K V)), ValidNeighbours ps.length nb →
    ∃ before ps', run c nb f rs ps = .ok (before, ps') ∧ before.length = rs.length ∧ ps'.length = ps.length ∧ (∀ b ∈ before, b.length = ps.length) ∧
      ∀ i p xs, ps[i]? = some p → Remembers c.minimize f xs p → ∃ p', ps'[i]? = some p' ∧ Remembers c.minimize f (xs ++ before.map fun b => pos b i) p'
  | [], ps, _ => ⟨[], ps, rfl, rfl, rfl, by simp, fun i p xs hp h => ⟨p, hp, by simpa using h⟩⟩
  | r :: rs, ps, hn => by
    obtain ⟨ps1, h1, h2, h3⟩ := learnStep_spec c nb f r.1 r.2 ps hn
    obtain ⟨before, ps', k1, k2, k3, k4, k5⟩ := run_spec c nb f rs ps1 (by rw [h2]; exact hn)
    refine ⟨ps :: before, ps', ?_, by simp [k2], by rw [k3, h2], ?_, ?_⟩
    · simp only [run, h1, k1]
    · intro b hb
      rcases List.mem_cons.1 hb with hb | hb
      · rw [hb]
      · rw [k4 b hb, h2]
    · intro i p xs hp hr
      obtain ⟨b, -, -, hb⟩ := h3 i p hp
      have hr1 := setFitness_remembers c.minimize f xs p hr
      obtain ⟨p', g1, g2⟩ := k5 i _ (xs ++ [p.position]) hb (by simpa [moved, Remembers] using hr1)
      refine ⟨p', g1, ?_⟩
      have hpos : pos ps i = p.position := by simp [pos, hp]
      simpa [hpos] using g2

end Verif.PSO

namespace Verif.Props
open Verif.PSO
open Verif.DataSet (Err)

variable {K V : Type} [Field K] [LinearOrder K] [AddCommGroup V] [Module K V]

/-- **C81**, memory: any number of learning steps on a new swarm succeeds, evaluating every particle once per step at the place where it
then is, and afterwards every particle's `bestFitness` and `bestPosition` are those of the first best of all the positions at which it was evaluated. -/
theorem C81_best (c : Settings K) (nb : Nat → List Nat) (f : V → K) (starts : List V) (hn : ValidNeighbours starts.length nb) (rs : List ((Nat → K) × (Nat → K))) :
    ∃ before ps', run c nb f rs (starts.map Particle.new) = .ok (before, ps') ∧ before.length = rs.length ∧ ps'.length = starts.length ∧
      ∀ i < starts.length, ∃ p, ps'[i]? = some p ∧ (rs ≠ [] →
        ∃ t, ∃ h : t < before.length, p.bestPosition = pos before[t] i ∧ p.bestFitness = some (f (pos before[t] i)) ∧
          (∀ s (hs : s < before.length), AtLeast c.minimize (f (pos before[t] i)) (f (pos before[s] i))) ∧
          ∀ s (hs : s < t), Better c.minimize (f (pos before[t] i)) (f (pos (before[s]'(by omega)) i))) := by
  obtain ⟨before, ps', h1, h2, h3, h4, h5⟩ := run_spec c nb f rs (starts.map Particle.new) (by simpa using hn)
  refine ⟨before, ps', h1, h2, by simpa using h3, fun i hi => ?_⟩
  obtain ⟨p, hp, hr⟩ := h5 i (Particle.new starts[i]) [] (by simp [hi]) (by simp [Remembers, Particle.new])
  refine ⟨p, hp, fun hrs => ?_⟩
  rw [List.nil_append] at hr
  unfold Remembers at hr
  have hlen : 0 < before.length := by rw [h2]; exact List.length_pos_iff.2 hrs
  cases hb : p.bestFitness with
  | none =>
    rw [hb] at hr
    dsimp only at hr
    rw [List.map_eq_nil_iff] at hr
    rw [hr] at hlen; simp at hlen
  | some y =>
    rw [hb] at hr
    obtain ⟨t, ht, a1, a2, a3, a4⟩ := hr
    have ht' : t < before.length := by simpa using ht
    simp only [List.getElem_map] at a1 a2 a3 a4
    subst a2
    exact ⟨t, ht', a1, rfl, fun s hs => a3 s (by simpa using hs), fun s hs => a4 s hs⟩

/-- **C81**, movement: in a learning step every particle gets the velocity
`inertia·v + memory·r₂·(own best position − x) + sociality·r₁·(x_b − x)` and moves by it, where `b` is a neighbour whose fitness is the best
among the neighbours. `x_b` is the position of `b` at that moment: the new one if `b` comes earlier in the swarm. -/
theorem C81_move (c : Settings K) (nb : Nat → List Nat) (f : V → K) (r1 r2 : Nat → K) (ps : List (Particle K V)) (hn : ValidNeighbours ps.length nb) :
    ∃ ps', learnStep c nb f r1 r2 ps = .ok ps' ∧ ps'.length = ps.length ∧
      ∀ i (hi : i < ps.length), ∃ p' own, ps'[i]? = some p' ∧ own = (setFitness c.minimize ps[i] (f ps[i].position)).bestPosition ∧ p'.bestPosition = own ∧
        p'.position = ps[i].position + p'.velocity ∧
        ∃ b ∈ nb i, (∀ j ∈ nb i, AtLeast c.minimize (f (pos ps b)) (f (pos ps j))) ∧
          p'.velocity = c.inertia • ps[i].velocity + ((c.memory * r2 i) • (own - ps[i].position) +
            (c.sociality * r1 i) • ((if b < i then pos ps' b else pos ps b) - ps[i].position)) := by
  obtain ⟨ps', h1, h2, h3⟩ := learnStep_spec c nb f r1 r2 ps hn
  refine ⟨ps', h1, h2, fun i hi => ?_⟩
  obtain ⟨b, b1, b2, b3⟩ := h3 i ps[i] (List.getElem?_eq_getElem hi)
  have hvel : (setFitness c.minimize ps[i] (f ps[i].position)).velocity = ps[i].velocity := by unfold setFitness; dsimp only; split_ifs <;> rfl
  refine ⟨_, _, b3, rfl, rfl, ?_, b, b1, b2, ?_⟩
  · simp only [moved, setFitness_position]
  · simp only [moved, setFitness_position, hvel]

/-- **C81**, neighbourhoods: with `fullyConnected` all particles are neighbours, with `ring` the next and the previous one around the circle; both are
valid for every size of the swarm. -/
theorem C81_neighbours (n i : Nat) (hi : i < n) :
    fullyConnected n i = List.range n ∧ ring n i = [(i + 1) % n, (i + n - 1) % n] ∧ ValidNeighbours n (fullyConnected n) ∧ ValidNeighbours n (ring n) := by
  have hring : ∀ i < n, ring n i = [(i + 1) % n, (i + n - 1) % n] := by
    intro i hi
    unfold ring
    dsimp only
    congr 1
    · rw [List.getD_eq_getElem?_getD]
      by_cases h : i + 1 < n
      · rw [List.getElem?_append_left (by simp; omega), List.getElem?_drop, List.getElem?_range (by omega), Nat.mod_eq_of_lt h, Nat.add_comm]; rfl
      · have : i + 1 = n := by omega
        rw [List.getElem?_append_right (by simp; omega), this, Nat.mod_self]
        have h2 : i - (List.drop 1 (List.range n)).length = 0 := by simp; omega
        rw [h2, List.getElem?_take, if_pos (by omega), List.getElem?_range (by omega)]; rfl
    · congr 1
      rw [List.getD_eq_getElem?_getD]
      by_cases h : i = 0
      · subst h
        rw [List.getElem?_append_left (by simp; omega), List.getElem?_drop, List.getElem?_range (by omega), Nat.mod_eq_of_lt (by omega)]
        simp
      · rw [List.getElem?_append_right (by simp; omega)]
        have h2 : (List.drop (n - 1) (List.range n)).length = 1 := by simp; omega
        rw [h2, List.getElem?_take, if_pos (by omega), List.getElem?_range (by omega), show i + n - 1 = (i - 1) + n by omega, Nat.add_mod_right,
          Nat.mod_eq_of_lt (by omega)]; rfl
  refine ⟨rfl, hring i hi, fun j hj => ⟨?_, fun k hk => by simpa [fullyConnected] using hk⟩, fun j hj => ?_⟩
  · intro h
    have := congrArg List.length h
    simp [fullyConnected] at this
    omega
  · rw [hring j hj]
    refine ⟨by simp, fun k hk => ?_⟩
    simp only [List.mem_cons, List.not_mem_nil, or_false] at hk
    rcases hk with rfl | rfl <;> exact Nat.mod_lt _ (by omega)

/-- **C81**, start: every starting coordinate lies within its boundaries. -/
theorem C81_start [IsStrictOrderedRing K] (r min max : K) (hr : 0 ≤ r ∧ r < 1) (h : min ≤ max) : min ≤ startCoordinate r min max ∧ startCoordinate r min max ≤ max := by
  unfold startCoordinate
  constructor
  · have := mul_nonneg hr.1 (sub_nonneg.2 h); linarith
  · have := mul_le_mul_of_nonneg_right hr.2.le (sub_nonneg.2 h); linarith

/-- Two particles on a line that both see each other. -/
def PSO.two : List (Particle ℚ ℚ) := [⟨0, 1, 0, some 0⟩, ⟨4, 0, 0, none⟩]

/-- **C81 violated: the social attraction goes to a place nobody evaluated.** The particles of `PSO.two` maximise `-x²`. The best position ever found
is 0, where particle 0 is. Particle 1 at 4 is nevertheless drawn to 1, the place to which particle 0 has just moved: with `sociality·r₁ = 1` and no memory it ends
at 1 instead of 0. -/
theorem C81_negation_social :
    (learnStep ⟨false, 0, 1, 1⟩ (fullyConnected 2) (fun x => -(x * x)) (fun _ => 1) (fun _ => 1) PSO.two).toOption.map
      (fun ps' => (ps'.map Particle.position, ps'.map Particle.bestPosition)) = some ([1, 1], [0, 4]) := by
  decide +kernel

/-- The hypotheses are met by a ring of three particles, and a step does not raise. -/
example : ValidNeighbours 3 (ring 3) ∧ (learnStep ⟨true, 2, 2, 9/10⟩ (ring 3) (fun x : ℚ => x * x) (fun _ => 1/2) (fun _ => 1/3)
    ([1, -2, 3].map Particle.new)).toOption.isSome = true := by
  refine ⟨(C81_neighbours 3 0 (by omega)).2.2.2, by decide +kernel⟩

end Verif.Props

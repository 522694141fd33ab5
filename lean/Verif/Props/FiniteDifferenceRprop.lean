import Verif.Model.FiniteDifferenceRprop
import Verif.Props.FiniteDifference
/-
Property theorems C83 with the descenders in rprop mode (pybrain/optimization/finitedifference).
-/
namespace Verif.FD
open Verif.Opt Verif.Opt.Spec Verif.Descent Verif.Pinv

variable {K : Type} [Field K] [LinearOrder K] [IsStrictOrderedRing K] {n : Nat}

/-- The settings of rprop are sensible, as the default ones are. -/
structure Sensible (c : Settings K) : Prop where
  low : 0 < c.deltamin
  null : c.deltamin ≤ c.deltanull ∧ c.deltanull ≤ c.deltamax

/-- The step sizes of a descender are within their bounds. -/
def Within (c : Settings K) (d : Rprop K n) : Prop := ∀ j, c.deltamin ≤ d.theta j ∧ d.theta j ≤ c.deltamax

omit [IsStrictOrderedRing K] in
theorem within_init (c : Settings K) (h : Sensible c) (x : Fin n → K) : Within c (Rprop.init c x) := by
  intro j
  simp only [Rprop.init, zero_add]
  exact h.null

omit [IsStrictOrderedRing K] in
theorem within_call (c : Settings K) (h : Sensible c) (d : Rprop K n) (g : Fin n → K) : Within c (Rprop.call c d g) := by
  intro j
  exact ⟨le_min (le_max_right _ _) (h.null.1.trans h.null.2), min_le_right _ _⟩

/-- a coordinate moves by its step size in the direction of a multiple of its perturbation -/
theorem towards_sign {m : Bool} {b r1 r2 a d t : K} (h1 : AsGood m b r1) (h2 : AsGood m b r2) (ha : 0 < a) (ht : 0 < t) {move limit : K}
    (hmove : move = (SignType.sign (a * factor b r1 r2 * d) : K) * t) (hl : t ≤ limit) : Towards m r1 r2 move d limit := by
  have key := towards_of (d := d) (limit := a * |d|) h1 h2 ha rfl le_rfl
  subst hmove
  refine ⟨fun h hd => ?_, fun h hd => ?_, fun h => ?_, ?_⟩
  · have h0 := key.first h hd
    rcases lt_or_gt_of_ne hd with hneg | hpos
    · have : a * factor b r1 r2 * d < 0 := by
        by_contra hc
        push Not at hc
        nlinarith
      rw [sign_neg this]
      simp only [SignType.coe_neg_one, neg_one_mul]
      nlinarith
    · have : 0 < a * factor b r1 r2 * d := by
        by_contra hc
        push Not at hc
        nlinarith
      rw [sign_pos this]
      simp only [SignType.coe_one, one_mul]
      positivity
  · have h0 := key.second h hd
    rcases lt_or_gt_of_ne hd with hneg | hpos
    · have : 0 < a * factor b r1 r2 * d := by
        by_contra hc
        push Not at hc
        nlinarith
      rw [sign_pos this]
      simp only [SignType.coe_one, one_mul]
      nlinarith
    · have : a * factor b r1 r2 * d < 0 := by
        by_contra hc
        push Not at hc
        nlinarith
      rw [sign_neg this]
      simp only [SignType.coe_neg_one, neg_one_mul]
      nlinarith
  · rw [key.equal h]
    simp
  · rw [abs_mul, abs_of_pos ht]
    have : |(SignType.sign (a * factor b r1 r2 * d) : K)| ≤ 1 := by
      rcases SignType.sign (a * factor b r1 r2 * d) <;> simp
    calc _ ≤ 1 * t := by gcongr
      _ ≤ limit := by linarith

/-- holds in all states that SPSA with rprop reaches -/
structure SpsaR.Ok (m : Bool) (c : Settings K) (s : SpsaR K n) : Prop where
  sync : s.current = s.gd.values
  dir : s.opt.minimize = some m
  eps : 0 < s.epsilon
  theta : Within c s.gd

theorem SpsaR.step_ok {m : Bool} {c : Settings K} (hc : Sensible c) {gamma : K} (hg : 0 < gamma) {s : SpsaR K n} (h : s.Ok m c)
    (b : Fin n → Bool) : (SpsaR.step c gamma b s).1.Ok m c := by
  unfold SpsaR.step
  dsimp only
  split
  · rename_i o he
    exact ⟨h.sync, (evalPair_advance h.dir he).dir, mul_pos h.eps hg, h.theta⟩
  · rename_i o r1 r2 he
    exact ⟨rfl, (evalPair_advance h.dir he).dir, mul_pos h.eps hg, within_call c hc _ _⟩

theorem SpsaR.run_ok {m : Bool} {c : Settings K} (hc : Sensible c) {gamma : K} (hg : 0 < gamma) : ∀ (bs : List (Fin n → Bool)) (s : SpsaR K n),
    s.Ok m c → (SpsaR.run c gamma bs s).Ok m c
  | [], s, h => h
  | b :: bs, s, h => by
    have h1 := SpsaR.step_ok hc hg h b
    unfold SpsaR.run
    split
    · rename_i s' he
      rw [he] at h1
      exact SpsaR.run_ok hc hg bs s' h1
    · rename_i s' _ he
      rw [he] at h1
      exact h1

/-- holds in all states that PGPE with rprop reaches -/
structure PgpeR.Ok (m : Bool) (c : Settings K) (s : PgpeR K n) : Prop where
  sync : s.current = s.gd.values
  dir : s.opt.minimize = some m
  theta : Within c s.gd

theorem PgpeR.step_ok {m : Bool} {c cs : Settings K} (hc : Sensible c) {e : Exploration} {w : K} {s : PgpeR K n} (h : s.Ok m c) (z : Fin n → K) :
    (PgpeR.step c cs e w z s).1.Ok m c := by
  unfold PgpeR.step
  split
  · exact h
  dsimp only
  split
  · rename_i o he
    exact ⟨h.sync, (evalPair_advance h.dir he).dir, h.theta⟩
  · rename_i o r1 r2 he
    have hd := (evalPair_advance h.dir he).dir
    cases hb : s.baseline with
    | none =>
      dsimp only
      rw [if_neg (lt_irrefl _)]
      exact ⟨rfl, hd, within_call c hc _ _⟩
    | some b =>
      dsimp only
      set q := if o.bestEvaluation.getD 0 - b ≠ 0 then ((r1 + r2) / 2 - b) / (o.bestEvaluation.getD 0 - b) else 0
      by_cases hq : q > 0
      · rw [if_pos hq]
        cases e <;> exact ⟨rfl, hd, within_call c hc _ _⟩
      · rw [if_neg hq]
        exact ⟨rfl, hd, within_call c hc _ _⟩

theorem PgpeR.run_ok {m : Bool} {c cs : Settings K} (hc : Sensible c) {e : Exploration} {w : K} : ∀ (zs : List (Fin n → K)) (s : PgpeR K n),
    s.Ok m c → (PgpeR.run c cs e w zs s).Ok m c
  | [], s, h => h
  | z :: zs, s, h => by
    have h1 := PgpeR.step_ok (cs := cs) (e := e) (w := w) hc h z
    unfold PgpeR.run
    split
    · rename_i s' he
      rw [he] at h1
      exact PgpeR.run_ok hc zs s' h1
    · rename_i s' _ he
      rw [he] at h1
      exact h1

end Verif.FD

namespace Verif.Props
open Verif.FD Verif.Opt Verif.Opt.Spec Verif.Descent Verif.Pinv

variable {K : Type} [Field K] [LinearOrder K] [IsStrictOrderedRing K] {n : Nat}

/-- **C83**, SPSA with rprop: in every state reached from the start, the first step leaves the point where it is, and every later one moves each
coordinate towards the better one of the two perturbed points, not at all when they are equally good, and by at most `deltamax`. -/
theorem C83_rprop_spsa {m : Bool} (c : Settings K) (hc : Sensible c) (gamma : K) (hg : 0 < gamma)
    (o : Opt (Fin n → K) K) (hm : o.minimize = some m) (x0 : Fin n → K) (epsilon : K) (he : 0 < epsilon)
    (history : List (Fin n → Bool)) (bits : Fin n → Bool) (s s' : SpsaR K n) (hs : s = SpsaR.run c gamma history (SpsaR.init c o x0 epsilon))
    (h : SpsaR.step c gamma bits s = (s', .done)) :
    s'.opt.numEvaluations = s.opt.numEvaluations + 2 ∧ s'.epsilon = s.epsilon * gamma ∧ (s.baseline = none → s'.current = s.current) ∧
    ∃ (f : Objective (Fin n → K) K) (r1 r2 : K) (delta : Fin n → K), s.opt.evaluator = some f ∧ f s.opt.numEvaluations (fun j => s.current j + delta j) = some r1 ∧
      f (s.opt.numEvaluations + 1) (fun j => s.current j - delta j) = some r2 ∧
      (∀ j, delta j = if bits j then s.epsilon else -s.epsilon) ∧
      (s.baseline ≠ none → ∀ j, Towards m r1 r2 (s'.current j - s.current j) (delta j) c.deltamax) := by
  have hok : s.Ok m c := by
    rw [hs]
    exact SpsaR.run_ok hc hg history _ ⟨rfl, hm, he, within_init c hc x0⟩
  unfold SpsaR.step at h
  dsimp only at h
  split at h
  · simp at h
  · rename_i o' r1 r2 hp
    obtain ⟨⟨f, f1, f2, f3⟩, -, hm', hn, best, hb, hg1, hg2, -⟩ := evalPair_spec hok.dir hp
    rw [Prod.mk.injEq] at h
    obtain ⟨h, -⟩ := h
    subst h
    refine ⟨hn, rfl, fun hbl => ?_, f, r1, r2, _, f1, f2, f3, fun j => ?_, fun hbl j => ?_⟩
    · simp only [hbl]
      rw [hok.sync]
      funext j
      simp [Rprop.call]
    · have h2 : (2 : K) - 1 = 1 := by norm_num
      cases bits j <;> simp [h2]
    · obtain ⟨b0, hb0⟩ := Option.ne_none_iff_exists'.1 hbl
      have hd0 : ((if bits j = true then (1 : K) else 0) * 2 - 1) * s.epsilon ≠ 0 := by
        have h2 : (2 : K) - 1 = 1 := by norm_num
        have := hok.eps.ne'
        cases bits j <;> simp [h2, this]
      have hd2 : (((if bits j = true then (1 : K) else 0) * 2 - 1) * s.epsilon) ^ 2 = s.epsilon ^ 2 := by
        have h2 : (2 : K) - 1 = 1 := by norm_num
        cases bits j <;> simp [h2]
      apply towards_sign (a := gamma ^ 2) (t := s.gd.theta j) hg1 hg2 (pow_pos hg 2) (lt_of_lt_of_le hc.low (hok.theta j).1)
      · simp only [hb0, hb, Option.getD_some]
        have e : ∀ y, (Rprop.call c s.gd y).values j - s.current j = (SignType.sign (y j) : K) * s.gd.theta j := by
          intro y
          rw [hok.sync]; simp [Rprop.call]
        rw [e]
        set d := ((if bits j = true then (1 : K) else 0) * 2 - 1) * s.epsilon
        have : factor best r1 r2 * (s.epsilon * gamma) * (s.epsilon * gamma) / d = gamma ^ 2 * factor best r1 r2 * d := by
          rw [div_eq_iff hd0]
          calc factor best r1 r2 * (s.epsilon * gamma) * (s.epsilon * gamma) = factor best r1 r2 * gamma ^ 2 * s.epsilon ^ 2 := by ring
            _ = gamma ^ 2 * factor best r1 r2 * d * d := by rw [← hd2]; ring
        rw [this]
      · exact (hok.theta j).2

/-- **C83**, PGPE with rprop and without weight decay: the same. -/
theorem C83_rprop_pgpe {m : Bool} (c cs : Settings K) (hc : Sensible c) (e : Exploration)
    (o : Opt (Fin n → K) K) (hm : o.minimize = some m) (x0 : Fin n → K) (epsilon : K)
    (history : List (Fin n → K)) (z : Fin n → K) (s s' : PgpeR K n)
    (hs : s = PgpeR.run c cs e 0 history (PgpeR.init c o x0 epsilon))
    (h : PgpeR.step c cs e 0 z s = (s', .done)) :
    s'.opt.numEvaluations = s.opt.numEvaluations + 2 ∧ (s.baseline = none → s'.current = s.current ∧ s'.sigList = s.sigList) ∧
    ∃ (f : Objective (Fin n → K) K) (r1 r2 : K) (delta : Fin n → K), s.opt.evaluator = some f ∧ f s.opt.numEvaluations (fun j => s.current j + delta j) = some r1 ∧
      f (s.opt.numEvaluations + 1) (fun j => s.current j - delta j) = some r2 ∧ (∀ j, delta j = s.sigList j * z j) ∧
      (s.baseline ≠ none → ∀ j, Towards m r1 r2 (s'.current j - s.current j) (delta j) c.deltamax) := by
  have hok : s.Ok m c := by
    rw [hs]
    exact PgpeR.run_ok hc history _ ⟨rfl, hm, within_init c hc x0⟩
  unfold PgpeR.step at h
  split at h
  · simp at h
  dsimp only at h
  split at h
  · simp at h
  · rename_i o' r1 r2 hp
    obtain ⟨⟨f, f1, f2, f3⟩, -, hm', hn, best, hb, hg1, hg2, -⟩ := evalPair_spec hok.dir hp
    simp only [hb, Option.getD_some] at h
    have hcall : ∀ y j, (Rprop.call c s.gd y).values j - s.current j = (SignType.sign (y j) : K) * s.gd.theta j := by
      intro y j
      rw [hok.sync]; simp [Rprop.call]
    cases hbl : s.baseline with
    | none =>
      rw [hbl] at h
      dsimp only at h
      rw [if_neg (lt_irrefl _), Prod.mk.injEq] at h
      obtain ⟨h, -⟩ := h
      subst h
      refine ⟨hn, fun _ => ⟨?_, rfl⟩, f, r1, r2, _, f1, f2, f3, fun j => zero_add _, fun h0 => absurd rfl h0⟩
      rw [hok.sync]; funext j
      simp [Rprop.call]
    | some b0 =>
      rw [hbl] at h
      dsimp only at h
      set q := if best - b0 ≠ 0 then ((r1 + r2) / 2 - b0) / (best - b0) else 0 with hq
      have key : s'.opt = o' ∧ s'.current = (Rprop.call c s.gd fun j => factor best r1 r2 * (0 + s.sigList j * z j) - s.current j * s.sigList j * 0).values := by
        by_cases hpos : q > 0
        · rw [if_pos hpos] at h
          cases e with
          | glob => simp at h
          | other => simp at h
          | loc =>
            dsimp only at h
            rw [Prod.mk.injEq] at h
            obtain ⟨h, -⟩ := h
            subst h
            exact ⟨rfl, rfl⟩
        · rw [if_neg hpos, Prod.mk.injEq] at h
          obtain ⟨h, -⟩ := h
          subst h
          exact ⟨rfl, rfl⟩
      refine ⟨by rw [key.1]; exact hn, fun h0 => by simp at h0, f, r1, r2, _, f1, f2, f3, fun j => zero_add _, fun _ j => ?_⟩
      apply towards_sign (a := 1) (t := s.gd.theta j) hg1 hg2 one_pos (lt_of_lt_of_le hc.low (hok.theta j).1)
      · rw [key.2, hcall]
        congr 3
        ring
      · exact (hok.theta j).2

/-- **C83**, finite differences with rprop on an objective that is linear around the current point with value 0 there: each coordinate moves by
its step size in the direction of the gradient. -/
theorem C83_rprop_fd_partial {m : Bool} (c : Settings K) (gamma : K) (pinv : ∀ {m : Nat}, Matrix (Fin m) (Fin n) K → Matrix (Fin n) (Fin m) K)
    (rs : List (Fin n → K)) (s s' : StateR K n) (hsync : s.current = s.gd.values) (g : Fin n → K) (hm : s.opt.minimize = some m)
    (hf : s.opt.evaluator = some fun _ x => some (∑ j, g j * (x j - s.current j)))
    (hp : ∀ rows, (batch gamma rs { opt := s.opt, current := s.current, gd := Momentum.init s.current 0, epsilon := s.epsilon }).2 = some rows →
      IsPinv (dMatrix rows) (pinv (dMatrix rows)) ∧ FullRank (dMatrix rows))
    (h : learnStepR c gamma pinv rs s = (s', .done)) (j : Fin n) :
    s'.current j = s.current j + (SignType.sign (g j) : K) * s.gd.theta j ∧ s'.epsilon = s.epsilon * gamma ^ rs.length := by
  unfold learnStepR at h
  split at h
  · simp at h
  · rename_i s1 rows hb
    obtain ⟨a1, -, -, a4, a5⟩ := batch_spec (m := m) rs _ _ _ hm hf hb
    obtain ⟨hp1, hp2⟩ := hp rows (by rw [hb])
    have hr : rVector rows = (dMatrix rows).mulVec g := by
      funext i
      rw [mulVec_dMatrix]
      have := (a5 i i.2 (a1 ▸ i.2)).1
      simp only [add_sub_cancel_left, Option.some.injEq] at this
      exact this.symm
    rw [hr, exact_solution hp1 hp2, Prod.mk.injEq] at h
    obtain ⟨h, -⟩ := h
    subst h
    refine ⟨?_, a4⟩
    rw [hsync]
    rfl

/-- **C83**, the standard deviations of PGPE with rprop: at the start all of them are epsilon, and a step raises a ValueError exactly if one of them is negative. -/
theorem C83_rprop_deviations (c cs : Settings K) (e : Exploration) (o : Opt (Fin n → K) K) (x0 : Fin n → K) (epsilon w : K) (z : Fin n → K) (s : PgpeR K n) :
    (∀ j, (PgpeR.init c o x0 epsilon).sigList j = epsilon ∧ (PgpeR.init c o x0 epsilon).gdSig.values j = epsilon) ∧
    ((PgpeR.step c cs e w z s).2 = .valueError ↔ ∃ j, s.sigList j < 0) := by
  refine ⟨fun j => ⟨one_mul _, one_mul _⟩, ?_⟩
  unfold PgpeR.step
  by_cases h : ∃ j, s.sigList j < 0
  · rw [if_pos h]; exact ⟨fun _ => h, fun _ => rfl⟩
  · rw [if_neg h]
    refine ⟨fun h' => ?_, fun h' => absurd h' h⟩
    exfalso
    revert h'
    dsimp only
    split
    · simp
    · cases e <;> cases s.baseline <;> dsimp only <;> split_ifs <;> simp

/-- The linear objective `x`, to be maximised. -/
def exampleClimb : Opt (Fin 1 → ℚ) ℚ := { exampleOpt false with evaluator := some fun _ x => some (x 0) }

/-- **C83 violated for the standard deviations of PGPE with rprop**: maximising the linear objective `x` from 0 with the default settings of
rprop and perturbations of half a standard deviation, the standard deviation falls from 2 below 0 within twelve steps; the next step raises a
ValueError. -/
theorem C83_negation_rprop_sigma :
    (PgpeR.run exampleSettings exampleSettings .loc 0 (List.replicate 12 fun _ => 1 / 2) (PgpeR.init exampleSettings exampleClimb (fun _ => 0) 2)).sigList 0 < 0 ∧
    (PgpeR.step exampleSettings exampleSettings .loc 0 (fun _ => 1 / 2) (PgpeR.run exampleSettings exampleSettings .loc 0 (List.replicate 12 fun _ => 1 / 2)
      (PgpeR.init exampleSettings exampleClimb (fun _ => 0) 2))).2 = .valueError := by
  constructor <;> decide +kernel

-- the default settings are sensible, and steps succeed
example : Sensible exampleSettings := ⟨by decide +kernel, by decide +kernel⟩
example : (PgpeR.step exampleSettings exampleSettings .loc 0 (fun _ => 1 / 2) (PgpeR.run exampleSettings exampleSettings .loc 0 (List.replicate 3 fun _ => 1 / 2)
      (PgpeR.init exampleSettings exampleClimb (fun _ => 0) 2))).2 = .done := by decide +kernel
example : (SpsaR.step exampleSettings (1 / 2) (fun _ => true) (SpsaR.run exampleSettings (1 / 2) [fun _ => true]
      (SpsaR.init exampleSettings (exampleOpt true) (fun _ => 0) (1 / 2)))).2 = .done := by decide +kernel
example : (learnStepR exampleSettings (1 / 2) pinvColumn [fun _ => 1, fun _ => 0] (initR exampleSettings (exampleLinear true).opt (fun _ => 0) 1)).2 = .done := by
  decide +kernel

end Verif.Props

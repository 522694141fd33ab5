import Verif.Model.FiniteDifference
import Verif.Spec.Pinv
import Verif.Lemmas.Optimizer
import Mathlib.Algebra.BigOperators.Field
import Mathlib.Algebra.BigOperators.Fin
import Mathlib.Tactic.FieldSimp
import Mathlib.Tactic.Linarith
import Mathlib.Tactic.Positivity
/-
Property theorems C83 (pybrain/optimization/finitedifference).
-/
namespace Verif.FD
open Verif.Opt Verif.Opt.Spec Verif.Descent Verif.Pinv

variable {K : Type} [Field K] [LinearOrder K] [IsStrictOrderedRing K] {n : Nat} {X : Type}

/-- What one successful evaluation does. -/
theorem oneEvaluation_spec {o o' : Opt X K} {x : X} {r : K} {m : Bool} (hm : o.minimize = some m) (h : oneEvaluation o x = (o', some r)) :
    (∃ f, o.evaluator = some f ∧ f o.numEvaluations x = some r) ∧ o'.evaluator = o.evaluator ∧ o'.minimize = some m ∧
    o'.numEvaluations = o.numEvaluations + 1 ∧
    ∃ b, o'.bestEvaluation = some b ∧ AsGood m b r ∧ ∀ b0, o.bestEvaluation = some b0 → o.numEvaluations ≠ 0 → AsGood m b b0 := by
  unfold oneEvaluation at h
  cases hf : o.evaluator.bind (fun f => f o.numEvaluations x) with
  | none => rw [hf] at h; simp at h
  | some res =>
    rw [hf] at h
    dsimp only at h
    rw [Prod.mk.injEq] at h
    obtain ⟨h1, h2⟩ := h
    have h2 : res = r := by simpa using h2
    subst h2
    obtain ⟨f, hf1, hf2⟩ := Option.bind_eq_some_iff.1 hf
    refine ⟨⟨f, hf1, hf2⟩, ?_⟩
    by_cases hb : isNewBest o res
    · rw [if_pos hb] at h1
      subst h1
      refine ⟨rfl, hm, rfl, res, rfl, ?_, ?_⟩
      · unfold AsGood; split <;> exact le_refl _
      · intro b0 hb0 hn
        unfold isNewBest at hb
        rw [hb0] at hb
        simp only [Bool.or_eq_true, beq_iff_eq, hn, false_or] at hb
        rw [hm] at hb
        exact (better_iff m res b0).1 hb
    · rw [if_neg hb] at h1
      subst h1
      unfold isNewBest at hb
      cases hbe : o.bestEvaluation with
      | none => rw [hbe] at hb; simp at hb
      | some b =>
        rw [hbe] at hb
        simp only [Bool.or_eq_true, beq_iff_eq, not_or, Bool.not_eq_true] at hb
        rw [hm] at hb
        refine ⟨rfl, hm, rfl, b, by simpa using hbe, ?_, ?_⟩
        · exact better_asGood ((not_better_iff m res b).1 hb.2)
        · intro b0 hb0 _
          cases hb0
          unfold AsGood; split <;> exact le_refl _

/-- What a pair of evaluations does. -/
theorem evalPair_spec {o o' : Opt (Fin n → K) K} {x d : Fin n → K} {r1 r2 : K} {m : Bool} (hm : o.minimize = some m)
    (h : evalPair o x d = (o', some (r1, r2))) :
    (∃ f, o.evaluator = some f ∧ f o.numEvaluations (fun j => x j + d j) = some r1 ∧ f (o.numEvaluations + 1) (fun j => x j - d j) = some r2) ∧
    o'.evaluator = o.evaluator ∧ o'.minimize = some m ∧ o'.numEvaluations = o.numEvaluations + 2 ∧
    ∃ b, o'.bestEvaluation = some b ∧ AsGood m b r1 ∧ AsGood m b r2 ∧ ∀ b0, o.bestEvaluation = some b0 → o.numEvaluations ≠ 0 → AsGood m b b0 := by
  unfold evalPair at h
  cases h1 : oneEvaluation o (fun j => x j + d j) with
  | mk o1 v1 =>
    rw [h1] at h
    cases v1 with
    | none => simp at h
    | some v1 =>
      dsimp only at h
      cases h2 : oneEvaluation o1 (fun j => x j - d j) with
      | mk o2 v2 =>
        rw [h2] at h
        cases v2 with
        | none => simp at h
        | some v2 =>
          dsimp only at h
          simp only [Prod.mk.injEq, Option.some.injEq] at h
          obtain ⟨rfl, rfl, rfl⟩ := h
          obtain ⟨⟨f, f1, f2⟩, e1, m1, n1, b1, hb1, hg1, hk1⟩ := oneEvaluation_spec hm h1
          obtain ⟨⟨g, g1, g2⟩, e2, m2, n2, b2, hb2, hg2, hk2⟩ := oneEvaluation_spec m1 h2
          rw [e1, f1] at g1
          cases g1
          have hb : AsGood m b2 b1 := hk2 b1 hb1 (by omega)
          refine ⟨⟨f, f1, f2, by rw [n1] at g2; exact g2⟩, by rw [e2, e1], m2, by omega, b2, hb2, asGood_trans hb hg1, hg2, ?_⟩
          intro b0 h0 hn
          exact asGood_trans hb (hk1 b0 h0 hn)

/-- What evaluating may do to the optimizer, also when it fails. -/
structure Advance (m : Bool) (o o' : Opt X K) : Prop where
  dir : o'.minimize = some m
  count : o.numEvaluations ≤ o'.numEvaluations
  best : ∀ b0, o.bestEvaluation = some b0 → o.numEvaluations ≠ 0 → ∃ b, o'.bestEvaluation = some b ∧ AsGood m b b0

theorem evalPair_advance {o o' : Opt (Fin n → K) K} {x d : Fin n → K} {v : Option (K × K)} {m : Bool} (hm : o.minimize = some m)
    (h : evalPair o x d = (o', v)) : Advance m o o' := by
  cases v with
  | some v =>
    obtain ⟨-, -, h1, h2, b, h3, -, -, h4⟩ := evalPair_spec hm h
    exact ⟨h1, by omega, fun b0 hb hn => ⟨b, h3, h4 b0 hb hn⟩⟩
  | none =>
    have hrefl : Advance m o o := ⟨hm, le_refl _, fun b0 hb _ => ⟨b0, hb, by unfold AsGood; split <;> exact le_refl _⟩⟩
    unfold evalPair at h
    cases h1 : oneEvaluation o (fun j => x j + d j) with
    | mk o1 v1 =>
      rw [h1] at h
      cases v1 with
      | none =>
        have := oneEvaluation_none o (fun j => x j + d j) (by rw [h1])
        rw [h1] at this
        dsimp only at this h
        cases h
        rw [this]; exact hrefl
      | some v1 =>
        dsimp only at h
        obtain ⟨-, -, m1, n1, b1, hb1, -, hk1⟩ := oneEvaluation_spec hm h1
        cases h2 : oneEvaluation o1 (fun j => x j - d j) with
        | mk o2 v2 =>
          rw [h2] at h
          cases v2 with
          | some v2 => simp at h
          | none =>
            have := oneEvaluation_none o1 (fun j => x j - d j) (by rw [h2])
            rw [h2] at this
            dsimp only at this h
            cases h
            rw [this]
            exact ⟨m1, by omega, fun b0 hb hn => ⟨b1, hb1, hk1 b0 hb hn⟩⟩

/-- The factor is between -1 and 1. -/
theorem factor_bound {m : Bool} {b r1 r2 : K} (h1 : AsGood m b r1) (h2 : AsGood m b r2) : |factor b r1 r2| ≤ 1 := by
  unfold factor
  split
  · rename_i hne
    unfold AsGood at h1 h2
    cases m with
    | true =>
      simp only [if_true] at h1 h2
      have : 2 * b - r1 - r2 < 0 := by
        rcases lt_or_gt_of_ne hne with h | h <;> linarith
      rw [abs_div, div_le_one (abs_pos.2 this.ne), abs_of_neg this, abs_le]
      constructor <;> linarith
    | false =>
      simp only [Bool.false_eq_true, if_false] at h1 h2
      have : 0 < 2 * b - r1 - r2 := by
        rcases lt_or_gt_of_ne hne with h | h <;> linarith
      rw [abs_div, div_le_one (abs_pos.2 this.ne'), abs_of_pos this, abs_le]
      constructor <;> linarith
  · simp

/-- The factor is positive exactly when the first of the two evaluations is the better one. -/
theorem factor_pos {m : Bool} {b r1 r2 : K} (h1 : AsGood m b r1) (h2 : AsGood m b r2) : 0 < factor b r1 r2 ↔ Better m r1 r2 := by
  unfold factor
  unfold AsGood at h1 h2
  unfold Better
  split
  · rename_i hne
    cases m with
    | true =>
      simp only [if_true] at h1 h2 ⊢
      have : 2 * b - r1 - r2 < 0 := by
        rcases lt_or_gt_of_ne hne with h | h <;> linarith
      rw [← neg_div_neg_eq]
      rw [div_pos_iff_of_pos_right (by linarith)]
      constructor <;> intro h <;> linarith
    | false =>
      simp only [Bool.false_eq_true, if_false] at h1 h2 ⊢
      have : 0 < 2 * b - r1 - r2 := by
        rcases lt_or_gt_of_ne hne with h | h <;> linarith
      rw [div_pos_iff_of_pos_right this]
      constructor <;> intro h <;> linarith
  · rename_i hne
    push Not at hne
    subst hne
    cases m <;> simp

omit [IsStrictOrderedRing K] in
theorem factor_swap (b r1 r2 : K) : factor b r2 r1 = - factor b r1 r2 := by
  unfold factor
  by_cases h : r1 = r2
  · simp [h]
  · rw [if_pos (Ne.symm h), if_pos h, ← neg_div]
    congr 1 <;> ring

theorem factor_neg {m : Bool} {b r1 r2 : K} (h1 : AsGood m b r1) (h2 : AsGood m b r2) : factor b r1 r2 < 0 ↔ Better m r2 r1 := by
  rw [← factor_pos h2 h1, factor_swap]
  constructor <;> intro h <;> linarith

/-- A move of length `|x| <= |d|`-bounded by a factor: what "the point moves towards the better of the two perturbations" means. `move` is the
change of one coordinate and `delta` the perturbation of it, `limit` the largest possible change. -/
structure Towards (m : Bool) (r1 r2 : K) (move delta limit : K) : Prop where
  first : Better m r1 r2 → delta ≠ 0 → 0 < move * delta
  second : Better m r2 r1 → delta ≠ 0 → move * delta < 0
  equal : r1 = r2 → move = 0
  bounded : |move| ≤ limit

theorem towards_of {m : Bool} {b r1 r2 a d : K} (h1 : AsGood m b r1) (h2 : AsGood m b r2) (ha : 0 < a) {move limit : K}
    (hmove : move = a * factor b r1 r2 * d) (hl : a * |d| ≤ limit) : Towards m r1 r2 move d limit := by
  subst hmove
  refine ⟨fun h hd => ?_, fun h hd => ?_, fun h => ?_, ?_⟩
  · have hf := (factor_pos h1 h2).2 h
    have : a * factor b r1 r2 * d * d = a * factor b r1 r2 * d ^ 2 := by ring
    rw [this]; positivity
  · have hf := (factor_neg h1 h2).2 h
    have : a * factor b r1 r2 * d * d = -(a * -factor b r1 r2 * d ^ 2) := by ring
    rw [this]
    have : 0 < -factor b r1 r2 := by linarith
    have : 0 < a * -factor b r1 r2 * d ^ 2 := by positivity
    linarith
  · simp [factor, h]
  · have hf := factor_bound h1 h2
    rw [abs_mul, abs_mul, abs_of_pos ha]
    calc a * |factor b r1 r2| * |d| ≤ a * 1 * |d| := by
          gcongr
      _ ≤ limit := by linarith

/-! ### SPSA -/

/-- holds in all states SPSA reaches -/
structure Spsa.Ok (m : Bool) (s : Spsa K n) : Prop where
  sync : s.current = s.gd.values
  dir : s.opt.minimize = some m
  eps : 0 < s.epsilon
  alpha : 0 < s.gd.alpha

theorem Spsa.step_ok {m : Bool} {c : Settings K} {gamma : K} (hg : 0 < gamma) (hd : 0 < c.alphadecay) {s : Spsa K n} (h : s.Ok m) (b : Fin n → Bool) :
    (Spsa.step c gamma b s).1.Ok m := by
  unfold Spsa.step
  dsimp only
  split
  · rename_i o he
    have := (evalPair_advance h.dir he).dir
    exact ⟨h.sync, this, mul_pos h.eps hg, h.alpha⟩
  · rename_i o r1 r2 he
    have := (evalPair_advance h.dir he).dir
    exact ⟨rfl, this, mul_pos h.eps hg, mul_pos h.alpha hd⟩

theorem Spsa.run_ok {m : Bool} {c : Settings K} {gamma : K} (hg : 0 < gamma) (hd : 0 < c.alphadecay) : ∀ (bs : List (Fin n → Bool)) (s : Spsa K n),
    s.Ok m → (Spsa.run c gamma bs s).Ok m
  | [], s, h => h
  | b :: bs, s, h => by
    have h1 := Spsa.step_ok hg hd h b
    unfold Spsa.run
    split
    · rename_i s' he
      rw [he] at h1
      exact Spsa.run_ok hg hd bs s' h1
    · rename_i s' _ he
      rw [he] at h1
      exact h1

/-! ### PGPE -/

/-- holds in all states PGPE reaches -/
structure Pgpe.Ok (m : Bool) (s : Pgpe K n) : Prop where
  sync : s.current = s.gd.values
  sigSync : s.sigList = s.gdSig.values
  dir : s.opt.minimize = some m
  alpha : 0 < s.gd.alpha
  sigAlpha : 0 < s.gdSig.alpha ∧ s.gdSig.alpha < 1
  sigma : ∀ j, 0 < s.sigList j
  base : ∀ b, s.baseline = some b → s.opt.numEvaluations ≠ 0 ∧ ∃ best, s.opt.bestEvaluation = some best ∧ AsGood m best b

theorem asGood_mix {m : Bool} {best b r1 r2 : K} (h : AsGood m best b) (h1 : AsGood m best r1) (h2 : AsGood m best r2) :
    AsGood m best (9 / 10 * b + 1 / 10 * ((r1 + r2) / 2)) := by
  unfold AsGood at *
  cases m <;> simp at * <;> linarith

theorem asGood_mean {m : Bool} {best r1 r2 : K} (h1 : AsGood m best r1) (h2 : AsGood m best r2) : AsGood m best ((r1 + r2) / 2) := by
  unfold AsGood at *
  cases m <;> simp at * <;> linarith

/-- The relative quality used for the sigmas is at most 1. -/
theorem quality_le {m : Bool} {best b r : K} (hb : AsGood m best b) (hr : AsGood m best r) : (if best - b ≠ 0 then (r - b) / (best - b) else 0) ≤ 1 := by
  split
  · rename_i hne
    unfold AsGood at *
    cases m with
    | true =>
      simp only [if_true] at *
      have : best - b < 0 := lt_of_le_of_ne (by linarith) hne
      rw [div_le_one_of_neg this]; linarith
    | false =>
      simp only [Bool.false_eq_true, if_false] at *
      have : 0 < best - b := lt_of_le_of_ne (by linarith) (Ne.symm hne)
      rw [div_le_one this]; linarith
  · exact zero_le_one

theorem sigma_pos {a q s d : K} (ha : 0 < a) (ha1 : a < 1) (hq : 0 < q) (hq1 : q ≤ 1) (hs : 0 < s) : 0 < s + a * (q * (d * d - s * s) / s) := by
  have h1 : s + a * (q * (d * d - s * s) / s) = s * (1 - a * q) + a * q * (d * d) / s := by field_simp; ring
  have h2 : a * q < 1 := by nlinarith
  have h3 : 0 < s * (1 - a * q) := mul_pos hs (by linarith)
  have h4 : 0 ≤ a * q * (d * d) / s := div_nonneg (mul_nonneg (by positivity) (mul_self_nonneg d)) hs.le
  rw [h1]; linarith

theorem Pgpe.step_ok {m : Bool} {c cs : Settings K} {e : Exploration} {w : K} (hd : 0 < c.alphadecay) (hsm : cs.momentum = 0)
    (hsd : 0 < cs.alphadecay ∧ cs.alphadecay ≤ 1) {s : Pgpe K n} (h : s.Ok m) (z : Fin n → K) : (Pgpe.step c cs e w z s).1.Ok m := by
  unfold Pgpe.step
  dsimp only
  split
  · rename_i o he
    have ha := evalPair_advance h.dir he
    refine ⟨h.sync, h.sigSync, ha.dir, h.alpha, h.sigAlpha, h.sigma, fun b hb => ?_⟩
    obtain ⟨h1, best, h2, h3⟩ := h.base b hb
    obtain ⟨b', h4, h5⟩ := ha.best best h2 h1
    exact ⟨fun h0 => h1 (Nat.le_zero.1 (h0 ▸ ha.count)), b', h4, asGood_trans h5 h3⟩
  · rename_i o r1 r2 he
    obtain ⟨-, -, hm, hn, best, hb, hg1, hg2, hk⟩ := evalPair_spec h.dir he
    have hdec : 0 < s.gd.alpha * c.alphadecay := mul_pos h.alpha hd
    have hbase : ∀ b0, s.baseline = some b0 → AsGood m best b0 := fun b0 hb0 => by
      obtain ⟨h1, b1, h2, h3⟩ := h.base b0 hb0
      exact asGood_trans (hk b1 h2 h1) h3
    have hn0 : o.numEvaluations ≠ 0 := by omega
    simp only [hb, Option.getD_some]
    cases hbl : s.baseline with
    | none =>
      dsimp only
      rw [if_neg (lt_irrefl _)]
      refine ⟨rfl, h.sigSync, hm, hdec, h.sigAlpha, h.sigma, fun b hb' => ⟨hn0, best, hb, ?_⟩⟩
      cases hb'
      exact asGood_mix (asGood_mean hg1 hg2) hg1 hg2
    | some b0 =>
      dsimp only
      have hok : ∀ b, some (9 / 10 * b0 + 1 / 10 * ((r1 + r2) / 2)) = some b → o.numEvaluations ≠ 0 ∧ ∃ best, o.bestEvaluation = some best ∧ AsGood m best b :=
        fun b hb' => ⟨hn0, best, hb, by cases hb'; exact asGood_mix (hbase b0 hbl) hg1 hg2⟩
      have hq := quality_le (hbase b0 hbl) (asGood_mean hg1 hg2)
      set q := if best - b0 ≠ 0 then ((r1 + r2) / 2 - b0) / (best - b0) else 0 with hqd
      by_cases hpos : q > 0
      · rw [if_pos hpos]
        cases e with
        | glob => exact ⟨rfl, h.sigSync, hm, hdec, h.sigAlpha, h.sigma, hok⟩
        | other => exact ⟨rfl, h.sigSync, hm, hdec, h.sigAlpha, h.sigma, hok⟩
        | loc =>
          refine ⟨rfl, rfl, hm, hdec, ⟨mul_pos h.sigAlpha.1 hsd.1, ?_⟩, fun j => ?_, hok⟩
          · have := h.sigAlpha
            show s.gdSig.alpha * cs.alphadecay < 1
            nlinarith [hsd.2, hsd.1]
          · show 0 < s.gdSig.values j + (s.gdSig.momentumvector j * cs.momentum + s.gdSig.alpha * _)
            rw [hsm, mul_zero, zero_add, ← h.sigSync]
            exact sigma_pos h.sigAlpha.1 h.sigAlpha.2 hpos hq (h.sigma j)
      · rw [if_neg hpos]
        exact ⟨rfl, h.sigSync, hm, hdec, h.sigAlpha, h.sigma, hok⟩

theorem Pgpe.run_ok {m : Bool} {c cs : Settings K} {e : Exploration} {w : K} (hd : 0 < c.alphadecay) (hsm : cs.momentum = 0)
    (hsd : 0 < cs.alphadecay ∧ cs.alphadecay ≤ 1) : ∀ (zs : List (Fin n → K)) (s : Pgpe K n), s.Ok m → (Pgpe.run c cs e w zs s).Ok m
  | [], s, h => h
  | z :: zs, s, h => by
    have h1 := Pgpe.step_ok (e := e) (w := w) hd hsm hsd h z
    unfold Pgpe.run
    split
    · rename_i s' he
      rw [he] at h1
      exact Pgpe.run_ok hd hsm hsd zs s' h1
    · rename_i s' _ he
      rw [he] at h1
      exact h1

/-! ### Finite differences -/

theorem batch_spec {m : Bool} {gamma : K} {f : Objective (Fin n → K) K} : ∀ (rs : List (Fin n → K)) (s s' : State K n) (rows : List ((Fin n → K) × K)),
    s.opt.minimize = some m → s.opt.evaluator = some f → batch gamma rs s = (s', some rows) →
    rows.length = rs.length ∧ s'.current = s.current ∧ s'.gd = s.gd ∧ s'.epsilon = s.epsilon * gamma ^ rs.length ∧
    ∀ (i : Nat) (hi : i < rows.length) (hi' : i < rs.length), f (s.opt.numEvaluations + i) (fun j => s.current j + rows[i].1 j) = some rows[i].2 ∧
      ∀ j, rows[i].1 j = uniform (s.epsilon * gamma ^ i) (rs[i] j)
  | [], s, s', rows, _, _, h => by
    simp only [batch, Prod.mk.injEq, Option.some.injEq] at h
    obtain ⟨rfl, rfl⟩ := h
    simp
  | r :: rs, s, s', rows, hm, hf, h => by
    unfold batch at h
    dsimp only at h
    split at h
    · simp at h
    · rename_i o v he
      obtain ⟨⟨g, g1, g2⟩, e1, m1, n1, -⟩ := oneEvaluation_spec hm he
      rw [hf] at g1; cases g1
      split at h
      · simp at h
      · rename_i s1 rows1 hb
        simp only [Prod.mk.injEq, Option.some.injEq] at h
        obtain ⟨rfl, rfl⟩ := h
        obtain ⟨a1, a2, a3, a4, a5⟩ := batch_spec (m := m) (f := f) rs _ _ _ (by exact m1) (by exact e1.trans hf) hb
        refine ⟨by simp [a1], a2, a3, ?_, ?_⟩
        · rw [a4, List.length_cons, pow_succ]; ring
        · intro i hi hi'
          cases i with
          | zero =>
            refine ⟨by simpa using g2, fun j => by simp⟩
          | succ i =>
            obtain ⟨b1, b2⟩ := a5 i (by simpa using hi) (by simpa using hi')
            refine ⟨?_, fun j => ?_⟩
            · dsimp only at b1
              rw [n1] at b1
              rw [show s.opt.numEvaluations + (i + 1) = s.opt.numEvaluations + 1 + i by omega]
              simpa using b1
            · have := b2 j
              simp only [List.getElem_cons_succ]
              rw [this, pow_succ]
              congr 1; dsimp only; ring

theorem learnStep_spec {m : Bool} {c : Settings K} {gamma : K} {pinv : ∀ {m : Nat}, Matrix (Fin m) (Fin n) K → Matrix (Fin n) (Fin m) K}
    {rs : List (Fin n → K)} {s s' : State K n} {f : Objective (Fin n → K) K} (hm : s.opt.minimize = some m) (hf : s.opt.evaluator = some f)
    (h : learnStep c gamma pinv rs s = (s', .done)) : ∃ rows s1, batch gamma rs s = (s1, some rows) ∧
      s'.current = (Momentum.call c s.gd ((pinv (dMatrix rows)).mulVec (rVector rows))).values ∧ s'.epsilon = s.epsilon * gamma ^ rs.length := by
  unfold learnStep at h
  split at h
  · simp at h
  · rename_i s1 rows hb
    obtain ⟨-, -, a3, a4, -⟩ := batch_spec (m := m) rs _ _ _ hm hf hb
    dsimp only at h
    rw [Prod.mk.injEq] at h
    obtain ⟨h, -⟩ := h
    subst h
    exact ⟨rows, s1, hb, by rw [a3], a4⟩

omit [LinearOrder K] [IsStrictOrderedRing K] in
theorem mulVec_dMatrix (rows : List ((Fin n → K) × K)) (g : Fin n → K) (i : Fin rows.length) :
    (dMatrix rows).mulVec g i = ∑ j, g j * rows[i].1 j := by
  simp only [dMatrix, Matrix.mulVec, dotProduct, Matrix.of_apply]
  exact Finset.sum_congr rfl fun j _ => mul_comm _ _

theorem uniform_abs {e r : K} (he : 0 ≤ e) (h0 : 0 ≤ r) (h1 : r ≤ 1) : |uniform e r| ≤ e := by
  unfold uniform
  rw [abs_le]
  constructor <;> nlinarith

end Verif.FD

namespace Verif.Props
open Verif.FD Verif.Opt Verif.Opt.Spec Verif.Descent Verif.Pinv

variable {K : Type} [Field K] [LinearOrder K] [IsStrictOrderedRing K] {n : Nat}

/-- **C83**, a step of FiniteDifferences: as many points are evaluated as the batch has members, the `i`-th within `epsilon * gamma ^ i` of the
current point in every coordinate; the descender is given the vector that fits the measured values best as a linear function of the
displacements (least sum of squares, without a constant term), and the exploration shrinks by `gamma` per evaluation. -/
theorem C83_least_squares {m : Bool} (c : Settings K) (gamma : K) (pinv : ∀ {m : Nat}, Matrix (Fin m) (Fin n) K → Matrix (Fin n) (Fin m) K)
    (rs : List (Fin n → K)) (s s' : State K n) (f : Objective (Fin n → K) K) (hm : s.opt.minimize = some m) (hf : s.opt.evaluator = some f)
    (hg : 0 ≤ gamma) (he : 0 ≤ s.epsilon) (hr : ∀ r ∈ rs, ∀ j, 0 ≤ r j ∧ r j ≤ 1)
    (hp : ∀ rows, (batch gamma rs s).2 = some rows → IsPinv (dMatrix rows) (pinv (dMatrix rows)))
    (h : learnStep c gamma pinv rs s = (s', .done)) :
    ∃ rows : List ((Fin n → K) × K), rows.length = rs.length ∧
      (∀ (i : Nat) (hi : i < rows.length), f (s.opt.numEvaluations + i) (fun j => s.current j + rows[i].1 j) = some rows[i].2 ∧
        ∀ j, |rows[i].1 j| ≤ s.epsilon * gamma ^ i ∧ ∀ r, rs[i]? = some r → rows[i].1 j = s.epsilon * gamma ^ i * (2 * r j - 1)) ∧
      (∃ β : Fin n → K, (∀ w : Fin n → K, ∑ i : Fin rows.length, (∑ j, β j * rows[i].1 j - rows[i].2) ^ 2 ≤ ∑ i : Fin rows.length, (∑ j, w j * rows[i].1 j - rows[i].2) ^ 2) ∧
        s'.current = (Momentum.call c s.gd β).values) ∧
      s'.epsilon = s.epsilon * gamma ^ rs.length := by
  obtain ⟨rows, s1, hb, h1, h2⟩ := learnStep_spec hm hf h
  obtain ⟨a1, a2, a3, a4, a5⟩ := batch_spec rs _ _ _ hm hf hb
  refine ⟨rows, a1, fun i hi => ?_, ⟨_, fun w => ?_, h1⟩, h2⟩
  · obtain ⟨b1, b2⟩ := a5 i hi (a1 ▸ hi)
    refine ⟨b1, fun j => ⟨?_, fun r hr' => ?_⟩⟩
    · rw [b2 j]
      have := hr _ (List.getElem_mem (a1 ▸ hi)) j
      exact uniform_abs (mul_nonneg he (pow_nonneg hg i)) this.1 this.2
    · rw [List.getElem?_eq_getElem (a1 ▸ hi), Option.some.injEq] at hr'
      rw [b2 j, hr', uniform]
      ring
  · have := least_squares (hp rows (by rw [hb])) (rVector rows) w
    simpa only [residual, mulVec_dMatrix, rVector] using this

/-- **C83**, partial: when the objective is linear around the current point with value 0 there, and the displacements determine a linear
function, the step is exactly a gradient step. What is missing is an objective with another value at the current point, see
`C83_negation_offset`. -/
theorem C83_exact_partial {m : Bool} (c : Settings K) (gamma : K) (pinv : ∀ {m : Nat}, Matrix (Fin m) (Fin n) K → Matrix (Fin n) (Fin m) K)
    (rs : List (Fin n → K)) (s s' : State K n) (g : Fin n → K) (hm : s.opt.minimize = some m)
    (hf : s.opt.evaluator = some fun _ x => some (∑ j, g j * (x j - s.current j)))
    (hp : ∀ rows, (batch gamma rs s).2 = some rows → IsPinv (dMatrix rows) (pinv (dMatrix rows)) ∧ FullRank (dMatrix rows))
    (h : learnStep c gamma pinv rs s = (s', .done)) : s'.current = (Momentum.call c s.gd g).values := by
  obtain ⟨rows, s1, hb, h1, -⟩ := learnStep_spec hm hf h
  obtain ⟨a1, -, -, -, a5⟩ := batch_spec rs _ _ _ hm hf hb
  obtain ⟨hp1, hp2⟩ := hp rows (by rw [hb])
  have : rVector rows = (dMatrix rows).mulVec g := by
    funext i
    rw [mulVec_dMatrix]
    have := (a5 i i.2 (a1 ▸ i.2)).1
    simp only [add_sub_cancel_left, Option.some.injEq] at this
    exact this.symm
  rw [h1, this, exact_solution hp1 hp2]

/-- **C83**: the search starts at the initial point: the first step from `x0` on a linear objective (with value 0 there) goes to `x0` plus the
learning rate times the gradient. -/
theorem C83_first_step {m : Bool} (c : Settings K) (hmom : c.momentum = 0) (gamma : K) (pinv : ∀ {m : Nat}, Matrix (Fin m) (Fin n) K → Matrix (Fin n) (Fin m) K)
    (rs : List (Fin n → K)) (o : Opt (Fin n → K) K) (x0 : Fin n → K) (learningRate epsilon : K) (s' : State K n) (g : Fin n → K)
    (hm : o.minimize = some m) (hf : o.evaluator = some fun _ x => some (∑ j, g j * (x j - x0 j)))
    (hp : ∀ rows, (batch gamma rs (FD.init o x0 learningRate epsilon)).2 = some rows → IsPinv (dMatrix rows) (pinv (dMatrix rows)) ∧ FullRank (dMatrix rows))
    (h : learnStep c gamma pinv rs (FD.init o x0 learningRate epsilon) = (s', .done)) (j : Fin n) : s'.current j = x0 j + learningRate * g j := by
  rw [C83_exact_partial c gamma pinv rs (FD.init o x0 learningRate epsilon) s' g hm hf hp h]
  simp [Momentum.call, Momentum.init, FD.init, hmom]

/-- **C83 violated when minimising**: FiniteDifferences always climbs. Asked to minimise a linear objective (exactly measured, as in
`C83_exact_partial`), every step with a positive learning rate makes the current point strictly worse. -/
theorem C83_negation_minimize (c : Settings K) (hmom : c.momentum = 0) (gamma : K)
    (pinv : ∀ {m : Nat}, Matrix (Fin m) (Fin n) K → Matrix (Fin n) (Fin m) K)
    (rs : List (Fin n → K)) (s s' : State K n) (hsync : s.current = s.gd.values) (g : Fin n → K) (hg : g ≠ 0) (ha : 0 < s.gd.alpha)
    (hm : s.opt.minimize = some true)
    (hf : s.opt.evaluator = some fun _ x => some (∑ j, g j * (x j - s.current j)))
    (hp : ∀ rows, (batch gamma rs s).2 = some rows → IsPinv (dMatrix rows) (pinv (dMatrix rows)) ∧ FullRank (dMatrix rows))
    (h : learnStep c gamma pinv rs s = (s', .done)) :
    ∑ j, g j * (s.current j - s.current j) < ∑ j, g j * (s'.current j - s.current j) := by
  have h1 := C83_exact_partial c gamma pinv rs s s' g hm hf hp h
  have h2 : ∀ j, s'.current j - s.current j = s.gd.alpha * g j := by
    intro j
    rw [h1, hsync]
    simp [Momentum.call, hmom]
  simp only [h2, sub_self, mul_zero, Finset.sum_const_zero]
  have : ∑ j, g j * (s.gd.alpha * g j) = s.gd.alpha * ∑ j, g j ^ 2 := by
    rw [Finset.mul_sum]; exact Finset.sum_congr rfl fun j _ => by ring
  rw [this]
  obtain ⟨j, hj⟩ := Function.ne_iff.1 hg
  have : 0 < ∑ j, g j ^ 2 := lt_of_lt_of_le (by have : g j ≠ 0 := hj; positivity : 0 < g j ^ 2)
    (Finset.single_le_sum (f := fun j => g j ^ 2) (fun j _ => sq_nonneg _) (Finset.mem_univ j))
  positivity

/-- **C83 violated for objectives that are not 0 at the current point**: the values are not compared with the value of the current point. On a
constant objective, whose gradient is 0, the point is moved by `learning rate * constant / displacement`. -/
theorem C83_negation_offset {m : Bool} (c : Settings K) (hmom : c.momentum = 0) (gamma : K)
    (pinv : ∀ {m : Nat}, Matrix (Fin m) (Fin 1) K → Matrix (Fin 1) (Fin m) K) (r : Fin 1 → K) (s s' : State K 1) (hsync : s.current = s.gd.values)
    (k : K) (hk : k ≠ 0) (ha : s.gd.alpha ≠ 0) (hd : uniform s.epsilon (r 0) ≠ 0) (hm : s.opt.minimize = some m)
    (hf : s.opt.evaluator = some fun _ _ => some k)
    (hp : ∀ rows, (batch gamma [r] s).2 = some rows → IsPinv (dMatrix rows) (pinv (dMatrix rows)))
    (h : learnStep c gamma pinv [r] s = (s', .done)) :
    s'.current 0 = s.current 0 + s.gd.alpha * (k / uniform s.epsilon (r 0)) ∧ s'.current ≠ s.current := by
  obtain ⟨rows, s1, hb, h1, -⟩ := learnStep_spec hm hf h
  obtain ⟨a1, -, -, -, a5⟩ := batch_spec [r] _ _ _ hm hf hb
  have hlen : rows.length = 1 := a1
  match rows, hlen with
  | [row], _ =>
    obtain ⟨b1, b2⟩ := a5 0 (by simp) (by simp)
    have b3 := b2 0
    simp only [List.getElem_cons_zero, pow_zero, mul_one, Option.some.injEq] at b1 b3
    have hn := normal_equation (hp [row] (by rw [hb])) (rVector [row]) (fun _ => 1)
    set β := (pinv (dMatrix [row])).mulVec (rVector [row]) with hβ
    have hn' : row.1 0 * (β 0 * row.1 0 - row.2) = 0 := by
      have hv : ∀ g : Fin 1 → K, (dMatrix [row]).mulVec g 0 = g 0 * row.1 0 := fun g => by rw [mulVec_dMatrix]; simp
      simpa [hv, rVector] using hn
    rw [← b3] at hd
    have hb0 : β 0 = k / row.1 0 := by
      have := (mul_eq_zero.1 hn').resolve_left hd
      rw [eq_div_iff hd, b1]
      exact sub_eq_zero.1 this
    have hcur : s'.current 0 = s.current 0 + s.gd.alpha * (k / uniform s.epsilon (r 0)) := by
      rw [h1, hsync]
      simp [Momentum.call, hmom, hb0, b3]
    refine ⟨hcur, fun he => ?_⟩
    rw [he, b3.symm] at hcur
    have : s.gd.alpha * (k / row.1 0) = 0 := by linarith
    exact mul_ne_zero ha (div_ne_zero hk hd) this

/-- **C83**, SPSA: in every state reached from the start, whether maximising or minimising, the first step leaves the point where it is. Every
later step moves each coordinate towards the better one of the two perturbed points, not at all when they are equally good, and by at
most `learning rate * epsilon` after the decay of epsilon, times `gamma`. Each step uses two evaluations, at the points `current ± delta`. -/
theorem C83_spsa {m : Bool} (c : Settings K) (hmom : c.momentum = 0) (hdecay : 0 < c.alphadecay) (gamma : K) (hg : 0 < gamma)
    (o : Opt (Fin n → K) K) (hm : o.minimize = some m) (x0 : Fin n → K) (learningRate epsilon : K) (hl : 0 < learningRate) (he : 0 < epsilon)
    (history : List (Fin n → Bool)) (bits : Fin n → Bool) (s s' : Spsa K n) (hs : s = Spsa.run c gamma history (Spsa.init o x0 learningRate epsilon))
    (h : Spsa.step c gamma bits s = (s', .done)) :
    s'.opt.numEvaluations = s.opt.numEvaluations + 2 ∧ s'.epsilon = s.epsilon * gamma ∧ (s.baseline = none → s'.current = s.current) ∧
    ∃ (f : Objective (Fin n → K) K) (r1 r2 : K) (delta : Fin n → K), s.opt.evaluator = some f ∧ f s.opt.numEvaluations (fun j => s.current j + delta j) = some r1 ∧
      f (s.opt.numEvaluations + 1) (fun j => s.current j - delta j) = some r2 ∧
      (∀ j, delta j = if bits j then s.epsilon else -s.epsilon) ∧
      (s.baseline ≠ none → ∀ j, Towards m r1 r2 (s'.current j - s.current j) (delta j) (s.gd.alpha * (s'.epsilon * gamma))) := by
  have hok : s.Ok m := by
    rw [hs]
    exact Spsa.run_ok hg hdecay history _ ⟨rfl, hm, he, hl⟩
  unfold Spsa.step at h
  dsimp only at h
  split at h
  · simp at h
  · rename_i o' r1 r2 hp
    obtain ⟨⟨f, f1, f2, f3⟩, -, hm', hn, best, hb, hg1, hg2, -⟩ := evalPair_spec hok.dir hp
    rw [Prod.mk.injEq] at h
    obtain ⟨h, -⟩ := h
    subst h
    refine ⟨hn, rfl, fun hbl => ?_, f, r1, r2, _, f1, f2, f3, fun j => ?_, fun hbl j => ?_⟩
    · simp only [hbl]
      rw [hok.sync]
      funext j
      simp [Momentum.call, hmom]
    · have h2 : (2 : K) - 1 = 1 := by norm_num
      cases bits j <;> simp [h2]
    · obtain ⟨b0, hb0⟩ := Option.ne_none_iff_exists'.1 hbl
      have hd0 : ((if bits j = true then (1 : K) else 0) * 2 - 1) * s.epsilon ≠ 0 := by
        have h2 : (2 : K) - 1 = 1 := by norm_num
        have := hok.eps.ne'
        cases bits j <;> simp [h2, this]
      have hd2 : (((if bits j = true then (1 : K) else 0) * 2 - 1) * s.epsilon) ^ 2 = s.epsilon ^ 2 := by
        have h2 : (2 : K) - 1 = 1 := by norm_num
        cases bits j <;> simp [h2]
      have habs : |((if bits j = true then (1 : K) else 0) * 2 - 1) * s.epsilon| = s.epsilon := by
        have h2 : (2 : K) - 1 = 1 := by norm_num
        cases bits j <;> simp [h2, abs_of_pos hok.eps]
      apply towards_of (a := s.gd.alpha * gamma ^ 2) hg1 hg2 (mul_pos hok.alpha (pow_pos hg 2))
      · simp only [hb0, hb, Option.getD_some]
        have e : ∀ y, (Momentum.call c s.gd y).values j - s.current j = s.gd.alpha * y j := by
          intro y
          rw [hok.sync]; simp [Momentum.call, hmom]
        rw [e]
        set d := ((if bits j = true then (1 : K) else 0) * 2 - 1) * s.epsilon
        have : factor best r1 r2 * (s.epsilon * gamma) * (s.epsilon * gamma) / d = factor best r1 r2 * gamma ^ 2 * d := by
          rw [div_eq_iff hd0]
          calc factor best r1 r2 * (s.epsilon * gamma) * (s.epsilon * gamma) = factor best r1 r2 * gamma ^ 2 * s.epsilon ^ 2 := by ring
            _ = factor best r1 r2 * gamma ^ 2 * d * d := by rw [← hd2]; ring
        rw [this]; ring
      · rw [habs]
        apply le_of_eq
        dsimp only; ring

/-- **C83**, PGPE: the same for PGPE without weight decay: each coordinate moves towards the better one of the two perturbed points, by at most
the learning rate times its perturbation, and not at all in the first step. -/
theorem C83_pgpe {m : Bool} (c cs : Settings K) (hmom : c.momentum = 0) (hdecay : 0 < c.alphadecay) (hsm : cs.momentum = 0)
    (hsd : 0 < cs.alphadecay ∧ cs.alphadecay ≤ 1) (e : Exploration) (o : Opt (Fin n → K) K) (hm : o.minimize = some m) (x0 : Fin n → K)
    (learningRate sigmaLearningRate epsilon : K) (hl : 0 < learningRate) (hsl : 0 < sigmaLearningRate ∧ sigmaLearningRate < 1) (he : 0 < epsilon)
    (history : List (Fin n → K)) (z : Fin n → K) (s s' : Pgpe K n)
    (hs : s = Pgpe.run c cs e 0 history (Pgpe.init o x0 learningRate sigmaLearningRate epsilon))
    (h : Pgpe.step c cs e 0 z s = (s', .done)) :
    s'.opt.numEvaluations = s.opt.numEvaluations + 2 ∧ (s.baseline = none → s'.current = s.current ∧ s'.sigList = s.sigList) ∧
    ∃ (f : Objective (Fin n → K) K) (r1 r2 : K) (delta : Fin n → K), s.opt.evaluator = some f ∧ f s.opt.numEvaluations (fun j => s.current j + delta j) = some r1 ∧
      f (s.opt.numEvaluations + 1) (fun j => s.current j - delta j) = some r2 ∧ (∀ j, delta j = s.sigList j * z j) ∧
      (s.baseline ≠ none → ∀ j, Towards m r1 r2 (s'.current j - s.current j) (delta j) (s.gd.alpha * |delta j|)) := by
  have hok : s.Ok m := by
    rw [hs]
    refine Pgpe.run_ok hdecay hsm hsd history _ ⟨rfl, rfl, hm, hl, hsl, fun j => ?_, fun b hb => ?_⟩
    · simpa [Pgpe.init] using he
    · simp [Pgpe.init] at hb
  unfold Pgpe.step at h
  dsimp only at h
  split at h
  · simp at h
  · rename_i o' r1 r2 hp
    obtain ⟨⟨f, f1, f2, f3⟩, -, hm', hn, best, hb, hg1, hg2, -⟩ := evalPair_spec hok.dir hp
    simp only [hb, Option.getD_some] at h
    have hcall : ∀ y j, (Momentum.call c s.gd y).values j - s.current j = s.gd.alpha * y j := by
      intro y j
      rw [hok.sync]; simp [Momentum.call, hmom]
    cases hbl : s.baseline with
    | none =>
      rw [hbl] at h
      dsimp only at h
      rw [if_neg (lt_irrefl _), Prod.mk.injEq] at h
      obtain ⟨h, -⟩ := h
      subst h
      refine ⟨hn, fun _ => ⟨?_, rfl⟩, f, r1, r2, _, f1, f2, f3, fun j => zero_add _, fun h0 => absurd rfl h0⟩
      rw [hok.sync]; funext j
      simp [Momentum.call, hmom]
    | some b0 =>
      rw [hbl] at h
      dsimp only at h
      set q := if best - b0 ≠ 0 then ((r1 + r2) / 2 - b0) / (best - b0) else 0 with hq
      have key : s'.opt = o' ∧ s'.current = (Momentum.call c s.gd fun j => factor best r1 r2 * (0 + s.sigList j * z j) - s.current j * s.sigList j * 0).values := by
        by_cases hpos : q > 0
        · rw [if_pos hpos] at h
          cases e with
          | glob => simp at h
          | other => simp at h
          | loc =>
            dsimp only at h
            rw [Prod.mk.injEq] at h
            obtain ⟨h, -⟩ := h
            subst h
            exact ⟨rfl, rfl⟩
        · rw [if_neg hpos, Prod.mk.injEq] at h
          obtain ⟨h, -⟩ := h
          subst h
          exact ⟨rfl, rfl⟩
      refine ⟨by rw [key.1]; exact hn, fun h0 => by simp at h0, f, r1, r2, _, f1, f2, f3, fun j => zero_add _, fun _ j => ?_⟩
      apply towards_of (a := s.gd.alpha) hg1 hg2 hok.alpha
      · rw [key.2, hcall]; ring
      · exact le_refl _

/-- **C83**, PGPE with local exploration: the baseline becomes the average 9:1 of itself and the mean of the two evaluations. The standard
deviations change only when that mean is better than the baseline was; then each one grows when the perturbation was larger than it and
shrinks when it was smaller. -/
theorem C83_pgpe_adaptation {m : Bool} (c cs : Settings K) (hdecay : 0 < c.alphadecay) (hsm : cs.momentum = 0)
    (hsd : 0 < cs.alphadecay ∧ cs.alphadecay ≤ 1) (w : K) (o : Opt (Fin n → K) K) (hm : o.minimize = some m) (x0 : Fin n → K)
    (learningRate sigmaLearningRate epsilon : K) (hl : 0 < learningRate) (hsl : 0 < sigmaLearningRate ∧ sigmaLearningRate < 1) (he : 0 < epsilon)
    (history : List (Fin n → K)) (z : Fin n → K) (s s' : Pgpe K n)
    (hs : s = Pgpe.run c cs .loc w history (Pgpe.init o x0 learningRate sigmaLearningRate epsilon))
    (h : Pgpe.step c cs .loc w z s = (s', .done)) (b0 : K) (hb0 : s.baseline = some b0) :
    ∃ (f : Objective (Fin n → K) K) (r1 r2 : K), s.opt.evaluator = some f ∧ f s.opt.numEvaluations (fun j => s.current j + s.sigList j * z j) = some r1 ∧
      f (s.opt.numEvaluations + 1) (fun j => s.current j - s.sigList j * z j) = some r2 ∧
      s'.baseline = some (9 / 10 * b0 + 1 / 10 * ((r1 + r2) / 2)) ∧
      (AsGood m b0 ((r1 + r2) / 2) → s'.sigList = s.sigList) ∧
      (Better m ((r1 + r2) / 2) b0 → ∀ j, (s.sigList j < |s.sigList j * z j| → s.sigList j < s'.sigList j) ∧
        (|s.sigList j * z j| < s.sigList j → s'.sigList j < s.sigList j)) := by
  have hok : s.Ok m := by
    rw [hs]
    refine Pgpe.run_ok hdecay hsm hsd history _ ⟨rfl, rfl, hm, hl, hsl, fun j => ?_, fun b hb => ?_⟩
    · simpa [Pgpe.init] using he
    · simp [Pgpe.init] at hb
  unfold Pgpe.step at h
  dsimp only at h
  split at h
  · simp at h
  · rename_i o' r1 r2 hp
    obtain ⟨⟨f, f1, f2, f3⟩, -, hm', hn, best, hb, hg1, hg2, hk⟩ := evalPair_spec hok.dir hp
    have hbase : AsGood m best b0 := by
      obtain ⟨h1, b1, h2, h3⟩ := hok.base b0 hb0
      exact asGood_trans (hk b1 h2 h1) h3
    have hmean := asGood_mean hg1 hg2
    simp only [hb, Option.getD_some, hb0, zero_add] at h f2 f3
    set mean := (r1 + r2) / 2 with hmd
    set q := if best - b0 ≠ 0 then (mean - b0) / (best - b0) else 0 with hq
    have hqpos : q > 0 ↔ Better m mean b0 := by
      rw [hq]
      unfold AsGood Better at *
      cases m with
      | true =>
        simp only [if_true] at hbase hmean ⊢
        split
        · rename_i hne
          have h0 : best - b0 < 0 := lt_of_le_of_ne (by linarith) hne
          rw [gt_iff_lt, ← neg_div_neg_eq, div_pos_iff_of_pos_right (by linarith)]
          constructor <;> intro h <;> linarith
        · rename_i hne
          push Not at hne
          constructor
          · intro h; exact absurd h (lt_irrefl _)
          · intro h; exfalso; linarith
      | false =>
        simp only [Bool.false_eq_true, if_false] at hbase hmean ⊢
        split
        · rename_i hne
          have h0 : 0 < best - b0 := lt_of_le_of_ne (by linarith) (Ne.symm hne)
          rw [gt_iff_lt, div_pos_iff_of_pos_right h0]
          constructor <;> intro h <;> linarith
        · rename_i hne
          push Not at hne
          constructor
          · intro h; exact absurd h (lt_irrefl _)
          · intro h; exfalso; linarith
    by_cases hpos : q > 0
    · rw [if_pos hpos, Prod.mk.injEq] at h
      obtain ⟨h, -⟩ := h
      subst h
      refine ⟨f, r1, r2, f1, f2, f3, rfl, fun hg => ?_, fun _ j => ?_⟩
      · have h1 := hqpos.1 hpos
        unfold AsGood at hg
        unfold Better at h1
        cases m <;> simp at hg h1 <;> exact absurd hg (not_le.2 h1)
      · have hsig := hok.sigma j
        have hval : (Momentum.call cs s.gdSig fun j => q * (s.sigList j * z j * (s.sigList j * z j) - s.sigList j * s.sigList j) / s.sigList j).values j =
            s.sigList j + s.gdSig.alpha * (q * ((s.sigList j * z j) ^ 2 - s.sigList j ^ 2) / s.sigList j) := by
          simp only [Momentum.call, hsm, ← hok.sigSync]; ring
        dsimp only
        rw [hval]
        have ha := hok.sigAlpha.1
        constructor
        · intro hlt
          have hsq : s.sigList j ^ 2 < (s.sigList j * z j) ^ 2 := by
            rw [← sq_abs (s.sigList j * z j)]
            exact pow_lt_pow_left₀ hlt hsig.le two_ne_zero
          have : 0 < s.gdSig.alpha * (q * ((s.sigList j * z j) ^ 2 - s.sigList j ^ 2) / s.sigList j) :=
            mul_pos ha (div_pos (mul_pos hpos (by linarith)) hsig)
          linarith
        · intro hlt
          have hsq : (s.sigList j * z j) ^ 2 < s.sigList j ^ 2 := by
            rw [← sq_abs (s.sigList j * z j)]
            exact pow_lt_pow_left₀ hlt (abs_nonneg _) two_ne_zero
          have : s.gdSig.alpha * (q * ((s.sigList j * z j) ^ 2 - s.sigList j ^ 2) / s.sigList j) < 0 :=
            mul_neg_of_pos_of_neg ha (div_neg_of_neg_of_pos (mul_neg_of_pos_of_neg hpos (by linarith)) hsig)
          linarith
    · rw [if_neg hpos, Prod.mk.injEq] at h
      obtain ⟨h, -⟩ := h
      subst h
      exact ⟨f, r1, r2, f1, f2, f3, rfl, fun _ => rfl, fun hbet => absurd (hqpos.2 hbet) hpos⟩

/-- **C83**, PGPE: the standard deviations stay positive in all runs, with any exploration type and weight decay, for a learning rate of the
sigmas below 1 and no momentum for them. -/
theorem C83_pgpe_sigma {m : Bool} (c cs : Settings K) (hdecay : 0 < c.alphadecay) (hsm : cs.momentum = 0)
    (hsd : 0 < cs.alphadecay ∧ cs.alphadecay ≤ 1) (e : Exploration) (w : K) (o : Opt (Fin n → K) K) (hm : o.minimize = some m) (x0 : Fin n → K)
    (learningRate sigmaLearningRate epsilon : K) (hl : 0 < learningRate) (hsl : 0 < sigmaLearningRate ∧ sigmaLearningRate < 1) (he : 0 < epsilon)
    (history : List (Fin n → K)) (j : Fin n) :
    0 < (Pgpe.run c cs e w history (Pgpe.init o x0 learningRate sigmaLearningRate epsilon)).sigList j := by
  refine (Pgpe.run_ok (m := m) hdecay hsm hsd history _ ⟨rfl, rfl, hm, hl, hsl, fun j => ?_, fun b hb => ?_⟩).sigma j
  · simpa [Pgpe.init] using he
  · simp [Pgpe.init] at hb

/-- **C83 violated by "global" exploration**: as soon as a pair of evaluations is on average better than the baseline (and the best evaluation
is too), the step raises an AttributeError. -/
theorem C83_negation_global (c cs : Settings K) (w : K) (z : Fin n → K) (s : Pgpe K n) (o' : Opt (Fin n → K) K) (b0 r1 r2 best : K)
    (hb : s.baseline = some b0) (hp : evalPair s.opt s.current (fun j => 0 + s.sigList j * z j) = (o', some (r1, r2)))
    (hbest : o'.bestEvaluation = some best) (h1 : b0 < (r1 + r2) / 2) (h2 : b0 < best) : (Pgpe.step c cs .glob w z s).2 = .attributeError := by
  unfold Pgpe.step
  dsimp only
  rw [hp]
  simp only [hb, hbest, Option.getD_some]
  rw [if_pos]
  have : best - b0 ≠ 0 := by intro h; linarith
  rw [if_pos this]
  exact div_pos (by linarith) (by linarith)

/-! ### The hypotheses are met -/

/-- an optimizer that maximises or minimises `x ↦ (x - 3)²` over one parameter -/
def exampleOpt (minimize : Bool) : Opt (Fin 1 → ℚ) ℚ :=
  { mustMinimize := false, mustMaximize := false, minimize := some minimize, evaluator := some fun _ x => some ((x 0 - 3) ^ 2), wasOpposed := false,
    desired := none, maxEvaluations := none, maxLearningSteps := none, batchSize := 2, numEvaluations := 0, numLearningSteps := 0,
    bestEvaluation := none, bestEvaluable := none, initEvaluable := none, allEvaluated := [], allEvaluations := [] }

def exampleSettings : Settings ℚ := ⟨1, 0, 5, 1 / 100, 1 / 10, 6 / 5, 1 / 2⟩

-- SPSA minimising from 0: the first step does not move, the second moves towards 3 (the perturbations are 1/2 and 1/4)
example : (Spsa.run exampleSettings (1 / 2) [fun _ => true] (Spsa.init (exampleOpt true) (fun _ => 0) (1 / 10) (1 / 2))).current 0 = 0 ∧
    0 < (Spsa.run exampleSettings (1 / 2) [fun _ => true, fun _ => true] (Spsa.init (exampleOpt true) (fun _ => 0) (1 / 10) (1 / 2))).current 0 := by
  constructor <;> decide +kernel

-- the steps end without an exception, also with PGPE, where a large perturbation in a good direction enlarges sigma
example : (Spsa.step exampleSettings (1 / 2) (fun _ => true) (Spsa.run exampleSettings (1 / 2) [fun _ => true]
      (Spsa.init (exampleOpt true) (fun _ => 0) (1 / 10) (1 / 2)))).2 = .done := by decide +kernel
example : (Pgpe.step exampleSettings exampleSettings .loc 0 (fun _ => 2) (Pgpe.run exampleSettings exampleSettings .loc 0 [fun _ => 1]
      (Pgpe.init (exampleOpt false) (fun _ => 0) (1 / 5) (1 / 10) 1))).2 = .done ∧
    1 < (Pgpe.step exampleSettings exampleSettings .loc 0 (fun _ => 2) (Pgpe.run exampleSettings exampleSettings .loc 0 [fun _ => 1]
      (Pgpe.init (exampleOpt false) (fun _ => 0) (1 / 5) (1 / 10) 1))).1.sigList 0 := by constructor <;> decide +kernel
example : (Pgpe.step exampleSettings exampleSettings .glob 0 (fun _ => 2) (Pgpe.run exampleSettings exampleSettings .glob 0 [fun _ => 1]
      (Pgpe.init (exampleOpt false) (fun _ => 0) (1 / 5) (1 / 10) 1))).2 = .attributeError := by decide +kernel

/-- A pseudo-inverse for matrices with one column. -/
def pinvColumn {m : Nat} (A : Matrix (Fin m) (Fin 1) ℚ) : Matrix (Fin 1) (Fin m) ℚ := Matrix.of fun _ i => A i 0 / ∑ i, A i 0 ^ 2

theorem pinvColumn_isPinv {m : Nat} (A : Matrix (Fin m) (Fin 1) ℚ) (h : ∑ i, A i 0 ^ 2 ≠ 0) : IsPinv A (pinvColumn A) ∧ FullRank A := by
  have h1 : pinvColumn A * A = 1 := by
    ext i j
    have hi : i = 0 := Subsingleton.elim _ _
    have hj : j = 0 := Subsingleton.elim _ _
    subst hi; subst hj
    simp only [Matrix.mul_apply, pinvColumn, Matrix.of_apply, Matrix.one_apply_eq]
    rw [← Finset.sum_congr rfl (fun i _ => (by ring : A i 0 ^ 2 / ∑ i, A i 0 ^ 2 = A i 0 / (∑ i, A i 0 ^ 2) * A i 0)), ← Finset.sum_div, div_self h]
  refine ⟨⟨?_, ?_, ?_, ?_⟩, fun x y hxy => ?_⟩
  · rw [Matrix.mul_assoc, h1, Matrix.mul_one]
  · rw [h1, Matrix.one_mul]
  · ext i j
    simp only [Matrix.transpose_apply, Matrix.mul_apply, pinvColumn, Matrix.of_apply, Fin.sum_univ_one]
    ring
  · rw [h1, Matrix.transpose_one]
  · have := congrArg (pinvColumn A).mulVec hxy
    simpa [Matrix.mulVec_mulVec, h1] using this

-- finite differences with the displacements 1 and -1/2, on the linear objective `2 x` at 0: one exact gradient step of 1/10 * 2; minimising
-- makes the point worse
def exampleLinear (minimize : Bool) : FD.State ℚ 1 :=
  FD.init { exampleOpt minimize with evaluator := some fun _ x => some (∑ j, (fun _ : Fin 1 => (2 : ℚ)) j * (x j - (fun _ : Fin 1 => (0 : ℚ)) j)) } (fun _ => 0) (1 / 10) 1
theorem exampleLinear_rows (minimize : Bool) (rows : List ((Fin 1 → ℚ) × ℚ))
    (h : (batch (1 / 2) [fun _ => 1, fun _ => 0] (exampleLinear minimize)).2 = some rows) :
    ∑ i, (dMatrix rows) i 0 ^ 2 ≠ 0 := by
  obtain ⟨rfl⟩ : [(fun _ : Fin 1 => (1 : ℚ), (2 : ℚ)), (fun _ => -1 / 2, -1)] = rows := by
    have h1 : (batch (1 / 2) [fun _ => 1, fun _ => 0] (exampleLinear minimize)).2 =
        some [(fun _ : Fin 1 => (1 : ℚ), (2 : ℚ)), (fun _ => -1 / 2, -1)] := by
      cases minimize <;> simp [batch, exampleLinear, FD.init, uniform, oneEvaluation, exampleOpt, isNewBest, better] <;> norm_num
    rw [h1] at h
    exact Option.some.inj h
  simp [dMatrix, Fin.sum_univ_succ]
  norm_num
example : ((learnStep exampleSettings (1 / 2) pinvColumn [fun _ => 1, fun _ => 0] (exampleLinear true)).2 = .done) ∧
    (learnStep exampleSettings (1 / 2) pinvColumn [fun _ => 1, fun _ => 0] (exampleLinear true)).1.current = fun _ => 1 / 10 * 2 := by
  have h2 : (learnStep exampleSettings (1 / 2) pinvColumn [fun _ => 1, fun _ => 0] (exampleLinear true)).2 = .done := by decide +kernel
  refine ⟨h2, ?_⟩
  have h3 := fun s' => C83_exact_partial (m := true) exampleSettings (1 / 2) pinvColumn [fun _ => 1, fun _ => 0] (exampleLinear true) s' (fun _ => 2) rfl rfl
    (fun rows hr => pinvColumn_isPinv _ (exampleLinear_rows true rows hr))
  generalize learnStep exampleSettings (1 / 2) pinvColumn [fun _ => 1, fun _ => 0] (exampleLinear true) = res at h2 h3 ⊢
  rw [h3 res.1 (Prod.ext rfl h2)]
  funext j
  simp [Momentum.call, exampleLinear, FD.init, Momentum.init, exampleSettings]

end Verif.Props

import Verif.Spec.GaussProcess
import Verif.Lemmas.GaussProcess
/-!
C92: Gaussian process regression.
-/

namespace Verif.GaussP
open Matrix Verif.NES Verif.KMeans

variable {d : Nat}

/-- the matrix of the regression -/
noncomputable def regMat (l s : ℝ) (xs : List (Vec d)) : Matrix (Fin xs.length) (Fin xs.length) ℝ :=
  buildCov l s xs xs + diagonal fun _ => (0.001 : ℝ)

theorem reg_quad (l s : ℝ) (xs : List (Vec d)) (v : Fin xs.length → ℝ) :
    v ⬝ᵥ regMat l s xs *ᵥ v = v ⬝ᵥ buildCov l s xs xs *ᵥ v + 0.001 * (v ⬝ᵥ v) := by
  rw [regMat, Matrix.add_mulVec, dotProduct_add]
  congr 1
  simp only [dotProduct, mulVec_diagonal, Finset.mul_sum]
  exact Finset.sum_congr rfl fun i _ => by ring

theorem buildCov_psd (l s : ℝ) (xs : List (Vec d)) (v : Fin xs.length → ℝ) : 0 ≤ v ⬝ᵥ buildCov l s xs xs *ᵥ v :=
  ((psd_iff _).1 (kernel_psd l s fun i : Fin xs.length => xs[i])).2 v

theorem reg_pos (l s : ℝ) (xs : List (Vec d)) (v : Fin xs.length → ℝ) (hv : v ≠ 0) : 0 < v ⬝ᵥ regMat l s xs *ᵥ v := by
  rw [reg_quad]
  have h1 := buildCov_psd l s xs v
  have h2 : 0 < v ⬝ᵥ v := by
    refine lt_of_le_of_ne (Finset.sum_nonneg fun i _ => mul_self_nonneg _) fun h => hv ?_
    exact dotProduct_self_eq_zero.1 h.symm
  linarith

theorem reg_symm (l s : ℝ) (xs : List (Vec d)) : (regMat l s xs)ᵀ = regMat l s xs := by
  rw [regMat, transpose_add, diagonal_transpose]
  congr 1
  ext i j
  simp [buildCov, kernel_comm]

theorem reg_unit (l s : ℝ) (xs : List (Vec d)) : IsUnit (regMat l s xs).det := by
  rw [isUnit_iff_ne_zero]
  intro h
  obtain ⟨v, hv, h0⟩ := Matrix.exists_mulVec_eq_zero_iff.2 h
  have := reg_pos l s xs v hv
  rw [h0, dotProduct_zero] at this
  exact lt_irrefl _ this

theorem reg_inv_symm (l s : ℝ) (xs : List (Vec d)) : ((regMat l s xs)⁻¹)ᵀ = (regMat l s xs)⁻¹ := by
  rw [Matrix.transpose_nonsing_inv, reg_symm]

/-- the coefficients -/
noncomputable def coeff (l s m : ℝ) (xs : List (Vec d)) (ys : List ℝ) : Fin xs.length → ℝ :=
  (regMat l s xs)⁻¹ *ᵥ fun j => ys.getD j 0 - m

/-- the posterior mean -/
noncomputable def post (l s m : ℝ) (xs : List (Vec d)) (ys : List ℝ) (x : Vec d) : ℝ := m + ∑ j, coeff l s m xs ys j * kernel l s xs[j] x

theorem reg_coeff (l s m : ℝ) (xs : List (Vec d)) (ys : List ℝ) (i : Fin xs.length) :
    (regMat l s xs *ᵥ coeff l s m xs ys) i = ys.getD i 0 - m := by
  rw [coeff, mulVec_mulVec, Matrix.mul_nonsing_inv _ (reg_unit l s xs), one_mulVec]

theorem reg_row (l s : ℝ) (xs : List (Vec d)) (a : Fin xs.length → ℝ) (i : Fin xs.length) :
    (regMat l s xs *ᵥ a) i = (∑ j, a j * kernel l s xs[j] xs[i]) + 0.001 * a i := by
  rw [regMat, add_mulVec, Pi.add_apply, mulVec_diagonal]
  congr 1
  change ∑ j, kernel l s xs[i] xs[j] * a j = _
  exact Finset.sum_congr rfl fun j _ => by rw [kernel_comm, mul_comm]

theorem post_isPosterior (l s m : ℝ) (xs : List (Vec d)) (ys : List ℝ) (h : ys.length = xs.length) :
    IsPosterior (kernel l s) m (xs.zip ys) (post l s m xs ys) := by
  refine ⟨List.ofFn fun i : Fin xs.length => (xs[i], ys.getD i 0, coeff l s m xs ys i), ?_, fun x => ?_, fun t ht => ?_⟩
  · rw [List.map_ofFn]
    apply List.ext_getElem
    · simp [h]
    · intro i h1 h2
      have hi : i < xs.length := by simpa using h1
      simp [List.getD_eq_getElem?_getD, List.getElem?_eq_getElem (h ▸ hi : i < ys.length)]
  · rw [List.map_ofFn, List.sum_ofFn]
    rfl
  · obtain ⟨i, rfl⟩ := (List.mem_ofFn' _ _).1 ht
    have := reg_coeff l s m xs ys i
    rw [reg_row] at this
    simp only [post]
    linarith

theorem isPosterior_unique (l s m : ℝ) (xs : List (Vec d)) (ys : List ℝ) (h : ys.length = xs.length) (f : Vec d → ℝ)
    (hf : IsPosterior (kernel l s) m (xs.zip ys) f) : f = post l s m xs ys := by
  obtain ⟨w, hw, h1, h2⟩ := hf
  have hlen : w.length = xs.length := by
    have := congrArg List.length hw
    simpa [h] using this
  set a : Fin xs.length → ℝ := fun i => (w[i]'(by omega)).2.2 with ha
  have hwi : ∀ i : Fin xs.length, (w[i]'(by omega)).1 = xs[i] ∧ (w[i]'(by omega)).2.1 = ys.getD i 0 := by
    intro i
    have h3 : (w.map fun t => (t.1, t.2.1))[i]'(by simp; omega) = (xs.zip ys)[i]'(by simp [h]) := by simp only [hw]
    have hy : (i : Nat) < ys.length := by omega
    simp only [Fin.getElem_fin, List.getElem_map, List.getElem_zip, Prod.mk.injEq] at h3
    exact ⟨h3.1, by rw [List.getD_eq_getElem?_getD, List.getElem?_eq_getElem hy]; exact h3.2⟩
  have hw2 : w = List.ofFn fun i : Fin xs.length => (xs[i], ys.getD i 0, a i) := by
    apply List.ext_getElem
    · simp [hlen]
    · intro i h3 h4
      have hi : i < xs.length := by omega
      have := hwi ⟨i, hi⟩
      simp only [Fin.getElem_fin] at this
      simp only [List.getElem_ofFn, Fin.getElem_fin, ← this.1, ← this.2, ha]
  have hfx : ∀ x, f x = m + ∑ j, a j * kernel l s xs[j] x := by
    intro x
    have h7 : w.map (fun t => t.2.2 * kernel l s t.1 x) = List.ofFn fun j : Fin xs.length => a j * kernel l s xs[j] x := by
      refine (congrArg (List.map _) hw2).trans ?_
      rw [List.map_ofFn]
      rfl
    rw [h1, h7, List.sum_ofFn]
  have hac : a = coeff l s m xs ys := by
    have : regMat l s xs *ᵥ a = fun j : Fin xs.length => ys.getD j 0 - m := by
      funext i
      have h5 := h2 (w[i]'(by omega)) (List.getElem_mem _)
      rw [(hwi i).1, (hwi i).2, hfx] at h5
      rw [reg_row]
      have h6 : a i = (w[i]'(by omega)).2.2 := rfl
      rw [← h6] at h5
      linarith
    rw [coeff, ← this, mulVec_mulVec, Matrix.nonsing_inv_mul _ (reg_unit l s xs), one_mulVec]
  funext x
  rw [hfx, hac]
  rfl

/-! ### the order of the data -/

theorem perm_lift {α β : Type} (g : α → β) {l1 l2 : List β} (h : l1.Perm l2) : ∀ w : List α, w.map g = l1 → ∃ w', w.Perm w' ∧ w'.map g = l2 := by
  induction h with
  | nil => exact fun w hw => ⟨w, List.Perm.refl _, hw⟩
  | cons x _ ih =>
    intro w hw
    cases w with
    | nil => exact absurd hw (by simp)
    | cons a w =>
      simp only [List.map_cons, List.cons.injEq] at hw
      obtain ⟨w', h1, h2⟩ := ih w hw.2
      exact ⟨a :: w', h1.cons a, by simp [hw.1, h2]⟩
  | swap x y l =>
    intro w hw
    match w, hw with
    | a :: b :: w, hw =>
      simp only [List.map_cons, List.cons.injEq] at hw
      exact ⟨b :: a :: w, List.Perm.swap _ _ _, by simp [hw]⟩
  | trans _ _ ih1 ih2 =>
    intro w hw
    obtain ⟨w1, h1, h2⟩ := ih1 w hw
    obtain ⟨w2, h3, h4⟩ := ih2 w1 h2
    exact ⟨w2, h1.trans h3, h4⟩

theorem isPosterior_perm (k : Vec d → Vec d → ℝ) (m : ℝ) (data data' : List (Vec d × ℝ)) (h : data.Perm data') (f : Vec d → ℝ)
    (hf : IsPosterior k m data f) : IsPosterior k m data' f := by
  obtain ⟨w, hw, h1, h2⟩ := hf
  obtain ⟨w', h3, h4⟩ := perm_lift _ h w hw
  exact ⟨w', h4, fun x => by rw [h1, (h3.map _).sum_eq], fun t ht => h2 t (h3.mem_iff.2 ht)⟩

/-! ### the covariance -/

/-- the explained variance -/
noncomputable def explained (l s : ℝ) (xs : List (Vec d)) (x x' : Vec d) : ℝ :=
  (fun j : Fin xs.length => kernel l s xs[j] x) ⬝ᵥ (regMat l s xs)⁻¹ *ᵥ fun j : Fin xs.length => kernel l s xs[j] x'

theorem explained_post (l s : ℝ) (xs : List (Vec d)) (x x' : Vec d) :
    explained l s xs x x' = post l s 0 xs (xs.map fun y => kernel l s y x') x := by
  rw [explained, post, zero_add, coeff, dotProduct]
  have e : (fun j : Fin xs.length => (xs.map fun y => kernel l s y x').getD j 0 - 0) = fun j : Fin xs.length => kernel l s xs[j] x' := by
    funext j
    simp [List.getD_eq_getElem?_getD]
  rw [e]
  exact Finset.sum_congr rfl fun j _ => mul_comm _ _

/-- the variational bound -/
theorem explained_ge (l s : ℝ) (xs : List (Vec d)) (x : Vec d) (a : Fin xs.length → ℝ) :
    2 * (a ⬝ᵥ fun j => kernel l s xs[j] x) - a ⬝ᵥ regMat l s xs *ᵥ a ≤ explained l s xs x x := by
  set u : Fin xs.length → ℝ := fun j => kernel l s xs[j] x with hu
  set A := regMat l s xs with hA
  have hq : 0 ≤ (a - A⁻¹ *ᵥ u) ⬝ᵥ A *ᵥ (a - A⁻¹ *ᵥ u) := by
    by_cases h : a - A⁻¹ *ᵥ u = 0
    · rw [h]; simp
    · exact (reg_pos l s xs _ h).le
  have hAA : A *ᵥ (A⁻¹ *ᵥ u) = u := by rw [mulVec_mulVec, Matrix.mul_nonsing_inv _ (reg_unit l s xs), one_mulVec]
  have hsym : (A⁻¹ *ᵥ u) ⬝ᵥ A *ᵥ a = a ⬝ᵥ u := by
    rw [dotProduct_mulVec, ← mulVec_transpose, hA, reg_symm, ← hA, hAA, dotProduct_comm]
  rw [mulVec_sub, dotProduct_sub, sub_dotProduct, sub_dotProduct, hAA, hsym, dotProduct_comm (A⁻¹ *ᵥ u) u] at hq
  have : explained l s xs x x = u ⬝ᵥ A⁻¹ *ᵥ u := rfl
  linarith

theorem explained_eq (l s : ℝ) (xs : List (Vec d)) (x : Vec d) : explained l s xs x x =
    2 * (((regMat l s xs)⁻¹ *ᵥ fun j => kernel l s xs[j] x) ⬝ᵥ fun j => kernel l s xs[j] x) -
      ((regMat l s xs)⁻¹ *ᵥ fun j => kernel l s xs[j] x) ⬝ᵥ regMat l s xs *ᵥ ((regMat l s xs)⁻¹ *ᵥ fun j => kernel l s xs[j] x) := by
  rw [mulVec_mulVec (M := regMat l s xs), Matrix.mul_nonsing_inv _ (reg_unit l s xs), one_mulVec, explained,
    dotProduct_comm (_ *ᵥ _) (fun j : Fin xs.length => kernel l s xs[j] x)]
  ring

theorem explained_nonneg (l s : ℝ) (xs : List (Vec d)) (x : Vec d) : 0 ≤ explained l s xs x x := by
  have := explained_ge l s xs x 0
  simpa using this

theorem explained_append (l s : ℝ) (xs extra : List (Vec d)) (x : Vec d) : explained l s xs x x ≤ explained l s (xs ++ extra) x x := by
  rw [explained_eq l s xs x]
  set a := (regMat l s xs)⁻¹ *ᵥ fun j => kernel l s xs[j] x with ha
  have hle : xs.length ≤ (xs ++ extra).length := by simp
  let e : Fin xs.length → Fin (xs ++ extra).length := Fin.castLE hle
  have hget : ∀ i, (xs ++ extra)[e i] = xs[i] := fun i => List.getElem_append_left i.2
  let b : Fin (xs ++ extra).length → ℝ := fun k => ∑ i, if e i = k then a i else 0
  have hb : ∀ g : Fin (xs ++ extra).length → ℝ, ∑ k, b k * g k = ∑ i, a i * g (e i) := by
    intro g
    simp only [b, Finset.sum_mul]
    rw [Finset.sum_comm]
    refine Finset.sum_congr rfl fun i _ => ?_
    simp
  have hinj : ∀ i j, e i = e j ↔ i = j := fun i j => by simp [e]
  have hbe : ∀ i, b (e i) = a i := by
    intro i
    simp only [b, hinj]
    simp
  refine le_trans (le_of_eq ?_) (explained_ge l s (xs ++ extra) x b)
  congr 1
  · congr 1
    simp only [dotProduct]
    rw [hb]
    simp only [hget]
  · simp only [dotProduct]
    rw [hb]
    refine Finset.sum_congr rfl fun i _ => ?_
    rw [reg_row, reg_row, hb, hbe]
    simp only [hget]

theorem explained_noise (l s : ℝ) (xs : List (Vec d)) (x : Vec d) (hx : x ∈ xs) : s ^ 2 - 0.001 ≤ explained l s xs x x := by
  obtain ⟨n, hn, rfl⟩ := List.getElem_of_mem hx
  have := explained_ge l s xs xs[n] (Pi.single ⟨n, hn⟩ 1)
  refine le_trans (le_of_eq ?_) this
  rw [single_one_dotProduct, single_one_dotProduct, reg_row]
  have : ∑ j : Fin xs.length, (Pi.single ⟨n, hn⟩ 1 : Fin xs.length → ℝ) j * kernel l s xs[j] xs[n] = s ^ 2 := by
    rw [Finset.sum_eq_single ⟨n, hn⟩]
    · simp [kernel_self]
    · intro b _ hb
      simp [hb]
    · simp
  simp only [Fin.getElem_fin] at this ⊢
  rw [this, kernel_self]
  rw [Pi.single_eq_same]
  ring

/-- the predictive covariance matrix -/
noncomputable def predMat (l s : ℝ) (xs arr : List (Vec d)) : Matrix (Fin arr.length) (Fin arr.length) ℝ :=
  Matrix.of fun i j => kernel l s arr[i] arr[j] - explained l s xs arr[i] arr[j]

theorem explained_comm (l s : ℝ) (xs : List (Vec d)) (x x' : Vec d) : explained l s xs x x' = explained l s xs x' x := by
  rw [explained, explained, dotProduct_mulVec, ← mulVec_transpose, reg_inv_symm, dotProduct_comm]

theorem predMat_symm (l s : ℝ) (xs arr : List (Vec d)) : (predMat l s xs arr).IsSymm := by
  ext i j
  simp only [predMat, transpose_apply, of_apply]
  rw [explained_comm, kernel_comm]

theorem predMat_psd (l s : ℝ) (xs arr : List (Vec d)) (v : Fin arr.length → ℝ) : 0 ≤ v ⬝ᵥ predMat l s xs arr *ᵥ v := by
  set B := buildCov l s xs arr with hB
  set u : Fin xs.length → ℝ := B *ᵥ v with hu
  set A := regMat l s xs with hA
  set a : Fin xs.length → ℝ := A⁻¹ *ᵥ u with ha
  -- the explained part
  have he : v ⬝ᵥ (Matrix.of fun i j : Fin arr.length => explained l s xs arr[i] arr[j]) *ᵥ v = u ⬝ᵥ a := by
    have e1 : (Matrix.of fun i j : Fin arr.length => explained l s xs arr[i] arr[j]) = Bᵀ * (A⁻¹ * B) := by
      ext i j
      rw [of_apply, explained, Matrix.mul_apply]
      refine Finset.sum_congr rfl fun k _ => ?_
      rfl
    rw [e1, ← mulVec_mulVec, ← mulVec_mulVec, dotProduct_mulVec, vecMul_transpose]
  have hp : v ⬝ᵥ predMat l s xs arr *ᵥ v = v ⬝ᵥ buildCov l s arr arr *ᵥ v - u ⬝ᵥ a := by
    have e2 : predMat l s xs arr = buildCov l s arr arr - Matrix.of fun i j : Fin arr.length => explained l s xs arr[i] arr[j] := by
      ext i j
      simp [predMat, buildCov]
    rw [e2, sub_mulVec, dotProduct_sub, he]
  -- the joint kernel matrix
  have hj := ((psd_iff _).1 (kernel_psd l s (Sum.elim (fun i : Fin xs.length => xs[i]) (fun i : Fin arr.length => arr[i])))).2 (Sum.elim (-a) v)
  have hjoint : (Sum.elim (-a) v) ⬝ᵥ (Matrix.of fun i j => kernel l s (Sum.elim (fun i : Fin xs.length => xs[i]) (fun i : Fin arr.length => arr[i]) i)
      (Sum.elim (fun i : Fin xs.length => xs[i]) (fun i : Fin arr.length => arr[i]) j)) *ᵥ (Sum.elim (-a) v) =
      a ⬝ᵥ buildCov l s xs xs *ᵥ a - 2 * (a ⬝ᵥ u) + v ⬝ᵥ buildCov l s arr arr *ᵥ v := by
    have hBt : v ⬝ᵥ Bᵀ *ᵥ a = a ⬝ᵥ u := by rw [dotProduct_mulVec, vecMul_transpose, dotProduct_comm]
    have hm : (Matrix.of fun i j => kernel l s (Sum.elim (fun i : Fin xs.length => xs[i]) (fun i : Fin arr.length => arr[i]) i)
      (Sum.elim (fun i : Fin xs.length => xs[i]) (fun i : Fin arr.length => arr[i]) j)) = fromBlocks (buildCov l s xs xs) B Bᵀ (buildCov l s arr arr) := by
      ext i j
      cases i <;> cases j <;> simp [buildCov, hB, kernel_comm]
    rw [hm, fromBlocks_mulVec, sumElim_dotProduct_sumElim]
    simp only [Sum.elim_comp_inl, Sum.elim_comp_inr, mulVec_neg, dotProduct_add, neg_dotProduct, dotProduct_neg, neg_neg, hBt, ← hu]
    ring
  rw [hjoint] at hj
  have hAa : a ⬝ᵥ A *ᵥ a = a ⬝ᵥ u := by
    conv_lhs => rw [ha, mulVec_mulVec (M := A), Matrix.mul_nonsing_inv _ (reg_unit l s xs), one_mulVec, ← ha]
  have hq := reg_quad l s xs a
  rw [← hA, hAa] at hq
  have hn : 0 ≤ a ⬝ᵥ a := Finset.sum_nonneg fun i _ => mul_self_nonneg _
  rw [hp, dotProduct_comm u a]
  linarith

/-! ### histories -/

/-- the training arrays fit together -/
def Inv (data : List (Vec d × ℝ)) (g : GP d) : Prop :=
  g.trainx = data.map Prod.fst ∧ g.trainy = data.map Prod.snd ∧ g.noise = List.replicate data.length 0.001

theorem calculate_train (g : GP d) : g.calculate.trainx = g.trainx ∧ g.calculate.trainy = g.trainy ∧ g.calculate.noise = g.noise ∧
    g.calculate.testx = g.testx ∧ g.calculate.hyper = g.hyper ∧ g.calculate.mean = g.mean := by
  rw [GP.calculate]
  split <;> exact ⟨rfl, rfl, rfl, rfl, rfl, rfl⟩

theorem inv_step (data : List (Vec d × ℝ)) (g : GP d) (h : Inv data g) (op : Op d) : Inv (samples data op) (g.step op) := by
  obtain ⟨h1, h2, h3⟩ := h
  cases op with
  | reset => exact ⟨rfl, rfl, rfl⟩
  | trainOnDataset ds => exact ⟨rfl, rfl, rfl⟩
  | addDataset ds =>
    refine ⟨?_, ?_, ?_⟩
    · simp [GP.step, GP.addDataset, samples, h1]
    · simp [GP.step, GP.addDataset, samples, h2]
    · simp [GP.step, GP.addDataset, samples, h1]
  | addSample x y =>
    refine ⟨?_, ?_, ?_⟩
    · simp [GP.step, GP.addSample, samples, h1]
    · simp [GP.step, GP.addSample, samples, h2]
    · simp [GP.step, GP.addSample, samples, h3, List.replicate_add]
  | testOnArray arr =>
    obtain ⟨e1, e2, e3, -⟩ := calculate_train { g with testx := arr }
    exact ⟨e1.trans h1, e2.trans h2, e3.trans h3⟩
  | draw =>
    simp only [GP.step, GP.draw, samples]
    split
    · exact ⟨h1, h2, h3⟩
    · obtain ⟨e1, e2, e3, -⟩ := calculate_train g
      exact ⟨e1.trans h1, e2.trans h2, e3.trans h3⟩
  | setHyper l s => exact ⟨h1, h2, h3⟩
  | setMean m => exact ⟨h1, h2, h3⟩

theorem inv_run (ops : List (Op d)) (data : List (Vec d × ℝ)) (g : GP d) (h : Inv data g) : Inv (ops.foldl samples data) (g.run ops) := by
  induction ops generalizing data g with
  | nil => exact h
  | cons op ops ih => exact ih _ _ (inv_step data g h op)

theorem inv_init (grid : List (Vec d)) (ops : List (Op d)) : Inv (samplesOf ops) ((GP.init grid).run ops) := inv_run ops [] _ ⟨rfl, rfl, rfl⟩

theorem K_eq (data : List (Vec d × ℝ)) (g : GP d) (h : Inv data g) : g.K = regMat g.hyper.1 g.hyper.2 g.trainx := by
  rw [GP.K, regMat]
  congr 1
  congr 1
  funext i
  have hi : (i : Nat) < data.length := by
    have h1 : g.trainx.length = data.length := by rw [h.1, List.length_map]
    exact h1 ▸ i.2
  rw [h.2.2, List.getD_eq_getElem?_getD, List.getElem?_replicate, if_pos hi]
  rfl

theorem calculate_mean (data : List (Vec d × ℝ)) (g : GP d) (h : Inv data g) (hd : data ≠ []) :
    g.calculate.predMean = g.testx.map (post g.hyper.1 g.hyper.2 g.mean g.trainx g.trainy) := by
  have h0 : g.trainx.length ≠ 0 := by
    rw [h.1, List.length_map]
    exact fun hh => hd (List.length_eq_zero_iff.1 hh)
  rw [GP.calculate, if_neg h0]
  dsimp only
  rw [K_eq data g h]
  apply List.ext_getElem
  · simp
  · intro i h1 h2
    have hi : i < g.testx.length := by simpa using h1
    rw [List.getElem_ofFn, List.getElem_map, post]
    congr 1
    change ∑ j : Fin g.trainx.length, kernel g.hyper.1 g.hyper.2 g.trainx[j] g.testx[i] * coeff g.hyper.1 g.hyper.2 g.mean g.trainx g.trainy j = _
    exact Finset.sum_congr rfl fun j _ => mul_comm _ _

theorem calculate_cov (data : List (Vec d × ℝ)) (g : GP d) (h : Inv data g) (hd : data ≠ []) :
    g.calculate.predCov = rows (predMat g.hyper.1 g.hyper.2 g.trainx g.testx) := by
  have h0 : g.trainx.length ≠ 0 := by
    rw [h.1, List.length_map]
    exact fun hh => hd (List.length_eq_zero_iff.1 hh)
  rw [GP.calculate, if_neg h0]
  dsimp only
  rw [K_eq data g h]
  congr 1

theorem zip_data (data : List (Vec d × ℝ)) (g : GP d) (h : Inv data g) : g.trainx.zip g.trainy = data ∧ g.trainy.length = g.trainx.length := by
  rw [h.1, h.2.1]
  refine ⟨?_, by simp⟩
  rw [List.zip_map']
  simp

theorem test_mean (data : List (Vec d × ℝ)) (g : GP d) (h : Inv data g) (hd : data ≠ []) (arr : List (Vec d)) :
    (g.testOnArray arr).2 = arr.map (post g.hyper.1 g.hyper.2 g.mean g.trainx g.trainy) :=
  calculate_mean data { g with testx := arr } h hd

theorem test_cov (data : List (Vec d × ℝ)) (g : GP d) (h : Inv data g) (hd : data ≠ []) (arr : List (Vec d)) :
    (g.testOnArray arr).1.predCov = rows (predMat g.hyper.1 g.hyper.2 g.trainx arr) :=
  calculate_cov data { g with testx := arr } h hd

theorem predMat_isCov (l s : ℝ) (data : List (Vec d × ℝ)) (xs arr : List (Vec d)) (hxs : xs = data.map Prod.fst) (i j : Fin arr.length) :
    IsPosteriorCov (kernel l s) data arr[i] arr[j] (predMat l s xs arr i j) := by
  refine ⟨post l s 0 xs (xs.map fun y => kernel l s y arr[j]), ?_, ?_⟩
  · have := post_isPosterior l s 0 xs (xs.map fun y => kernel l s y arr[j]) (by simp)
    have e : xs.zip (xs.map fun y => kernel l s y arr[j]) = data.map fun p => (p.1, kernel l s p.1 arr[j]) := by
      rw [hxs, List.map_map, List.zip_map']
      rfl
    rwa [e] at this
  · rw [predMat, of_apply, explained_post]

theorem isPosteriorCov_unique (l s : ℝ) (data : List (Vec d × ℝ)) (x x' : Vec d) (c c' : ℝ) (h : IsPosteriorCov (kernel l s) data x x' c)
    (h' : IsPosteriorCov (kernel l s) data x x' c') : c = c' := by
  obtain ⟨f, hf, rfl⟩ := h
  obtain ⟨f', hf', rfl⟩ := h'
  have e : (data.map fun p => (p.1, kernel l s p.1 x')) = (data.map Prod.fst).zip ((data.map Prod.fst).map fun y => kernel l s y x') := by
    rw [List.map_map, List.zip_map']
    rfl
  rw [e] at hf hf'
  rw [isPosterior_unique l s 0 _ _ (by simp) f hf, isPosterior_unique l s 0 _ _ (by simp) f' hf']

theorem isPosteriorCov_perm (k : Vec d → Vec d → ℝ) (data data' : List (Vec d × ℝ)) (h : data.Perm data') (x x' : Vec d) (c : ℝ)
    (hc : IsPosteriorCov k data x x' c) : IsPosteriorCov k data' x x' c := by
  obtain ⟨f, hf, rfl⟩ := hc
  exact ⟨f, isPosterior_perm k 0 _ _ (h.map _) f hf, rfl⟩

end Verif.GaussP

namespace Verif.Props
open Matrix Verif.NES Verif.KMeans Verif.GaussP

variable {d : Nat}

/-- C92. After any history of calls the training set consists of the samples given since the last `reset` or `trainOnDataset`, in order, and
every sample has the noise variance 0.001. -/
theorem C92_history (grid : List (Vec d)) (ops : List (Op d)) :
    ((GP.init grid).run ops).trainx = (samplesOf ops).map Prod.fst ∧ ((GP.init grid).run ops).trainy = (samplesOf ops).map Prod.snd ∧
    ((GP.init grid).run ops).noise = List.replicate (samplesOf ops).length 0.001 := inv_init grid ops

/-- C92. After any history that leaves training samples, `testOnArray` returns one value for each point of the array: the posterior mean for the
samples and the current mean and hyper parameters. There is exactly one posterior mean. -/
theorem C92_prediction (grid : List (Vec d)) (ops : List (Op d)) (g : GP d) (hg : g = (GP.init grid).run ops) (h : samplesOf ops ≠ [])
    (arr : List (Vec d)) :
    ∃ f, IsPosterior (kernel g.hyper.1 g.hyper.2) g.mean (samplesOf ops) f ∧
      (∀ f', IsPosterior (kernel g.hyper.1 g.hyper.2) g.mean (samplesOf ops) f' → f' = f) ∧ (g.testOnArray arr).2 = arr.map f := by
  have hi : Inv (samplesOf ops) g := hg ▸ inv_init grid ops
  obtain ⟨hz, hl⟩ := zip_data _ g hi
  refine ⟨_, ?_, fun f' hf' => ?_, test_mean _ g hi h arr⟩
  · have := post_isPosterior g.hyper.1 g.hyper.2 g.mean g.trainx g.trainy hl
    rwa [hz] at this
  · rw [← hz] at hf'
    exact isPosterior_unique _ _ _ _ _ hl f' hf'

/-- C92. The covariance matrix computed by `testOnArray` is the posterior covariance of the points. It is symmetric and positive semidefinite, the
variances lie between 0 and the prior variance, and at a training input the variance is at most that of the noise. -/
theorem C92_covariance (grid : List (Vec d)) (ops : List (Op d)) (g : GP d) (hg : g = (GP.init grid).run ops) (h : samplesOf ops ≠ [])
    (arr : List (Vec d)) :
    ∃ C : Matrix (Fin arr.length) (Fin arr.length) ℝ, (g.testOnArray arr).1.predCov = rows C ∧
      (∀ i j, IsPosteriorCov (kernel g.hyper.1 g.hyper.2) (samplesOf ops) arr[i] arr[j] (C i j)) ∧
      C.IsSymm ∧ (∀ v, 0 ≤ v ⬝ᵥ C *ᵥ v) ∧
      ∀ i, 0 ≤ C i i ∧ C i i ≤ g.hyper.2 ^ 2 ∧ (arr[i] ∈ (samplesOf ops).map Prod.fst → C i i ≤ 0.001) := by
  have hi : Inv (samplesOf ops) g := hg ▸ inv_init grid ops
  refine ⟨_, test_cov _ g hi h arr, predMat_isCov _ _ _ _ arr hi.1, predMat_symm _ _ _ _, predMat_psd _ _ _ _, fun i => ⟨?_, ?_, fun hm => ?_⟩⟩
  · have := predMat_psd g.hyper.1 g.hyper.2 g.trainx arr (Pi.single i 1)
    simpa using this
  · have := explained_nonneg g.hyper.1 g.hyper.2 g.trainx arr[i]
    rw [predMat, of_apply, kernel_self]
    linarith
  · rw [← hi.1] at hm
    have := explained_noise g.hyper.1 g.hyper.2 g.trainx arr[i] hm
    rw [predMat, of_apply, kernel_self]
    linarith

/-- C92. More data never make a prediction less certain: after any two histories with the same hyper parameters, the second having the samples of
the first and further ones, the variances of the second are at most those of the first. -/
theorem C92_more_data (grid grid' : List (Vec d)) (ops ops' : List (Op d)) (g g' : GP d) (hg : g = (GP.init grid).run ops)
    (hg' : g' = (GP.init grid').run ops') (hh : g.hyper = g'.hyper) (h : samplesOf ops ≠ []) (extra : List (Vec d × ℝ))
    (hx : samplesOf ops' = samplesOf ops ++ extra) (arr : List (Vec d)) :
    ∃ C C' : Matrix (Fin arr.length) (Fin arr.length) ℝ, (g.testOnArray arr).1.predCov = rows C ∧ (g'.testOnArray arr).1.predCov = rows C' ∧
      ∀ i, C' i i ≤ C i i := by
  have hi : Inv (samplesOf ops) g := hg ▸ inv_init grid ops
  have hi' : Inv (samplesOf ops') g' := hg' ▸ inv_init grid' ops'
  refine ⟨_, _, test_cov _ g hi h arr, test_cov _ g' hi' (by rw [hx]; simp [h]) arr, fun i => ?_⟩
  have := explained_append g.hyper.1 g.hyper.2 (g.trainx) (extra.map Prod.fst) arr[i]
  rw [predMat, predMat, of_apply, of_apply, ← hh, hi'.1, hx, List.map_append, ← hi.1]
  linarith

/-- C92. The order of the samples does not matter: two histories whose samples are permutations of each other, with the same mean and hyper
parameters, give the same predictions and the same covariances. -/
theorem C92_order (grid grid' : List (Vec d)) (ops ops' : List (Op d)) (g g' : GP d) (hg : g = (GP.init grid).run ops)
    (hg' : g' = (GP.init grid').run ops') (hh : g.hyper = g'.hyper) (hm : g.mean = g'.mean) (h : samplesOf ops ≠ [])
    (hp : (samplesOf ops).Perm (samplesOf ops')) (arr : List (Vec d)) :
    (g.testOnArray arr).2 = (g'.testOnArray arr).2 ∧ (g.testOnArray arr).1.predCov = (g'.testOnArray arr).1.predCov := by
  have h' : samplesOf ops' ≠ [] := fun he => h (by rw [he] at hp; exact hp.eq_nil)
  obtain ⟨f, h1, -, h2⟩ := C92_prediction grid ops g hg h arr
  obtain ⟨f', -, h4, h5⟩ := C92_prediction grid' ops' g' hg' h' arr
  obtain ⟨C, c1, c2, -⟩ := C92_covariance grid ops g hg h arr
  obtain ⟨C', c3, c4, -⟩ := C92_covariance grid' ops' g' hg' h' arr
  constructor
  · rw [h2, h5]
    rw [hh, hm] at h1
    rw [h4 f (isPosterior_perm _ _ _ _ hp f h1)]
  · rw [c1, c3]
    congr 1
    ext i j
    have := isPosteriorCov_perm _ _ _ hp _ _ _ (c2 i j)
    rw [hh] at this
    exact isPosteriorCov_unique _ _ _ _ _ _ _ this (c4 i j)

/-- C92. `draw` after a call that changed the training set uses the mean and the covariance that `testOnArray` gives for the current test
points. -/
theorem C92_draw (grid : List (Vec d)) (ops : List (Op d)) (op : Op d)
    (hop : (∃ ds, op = .trainOnDataset ds) ∨ (∃ ds, op = .addDataset ds) ∨ ∃ x y, op = .addSample x y) (g : GP d)
    (hg : g = ((GP.init grid).run ops).step op) :
    g.draw.2 = ((g.testOnArray g.testx).2, (g.testOnArray g.testx).1.predCov) := by
  have hc : g.calculated = false := by
    rcases hop with ⟨ds, rfl⟩ | ⟨ds, rfl⟩ | ⟨x, y, rfl⟩ <;> rw [hg] <;> rfl
  rw [GP.draw, if_neg (by simp [hc])]
  rfl

/-- C92 fails without training samples: `testOnArray` returns zeros, as many as the test points of the constructor, whatever the array and
whatever mean was set. -/
theorem C92_negation_untrained (grid arr : List (Vec d)) (m : ℝ) :
    (((GP.init grid).step (.setMean m)).testOnArray arr).2 = List.replicate grid.length 0 := rfl

/-- C92 fails for `draw` when the hyper parameters were changed after the last calculation: the old distribution is used. Here the sample (0, 1)
was given, the prediction at 0 calculated, and the second hyper parameter changed from 2 to 1: `draw` has the mean 4 / 4.001 instead of
1 / 1.001. -/
theorem C92_negation_stale : ∃ (ops : List (Op 1)) (g : GP 1), g = (GP.init []).run ops ∧ g.draw.2.1 = [4 / 4.001] ∧
    (g.testOnArray g.testx).2 = [1 / 1.001] := by
  have hpost : ∀ l s : ℝ, ∀ f, IsPosterior (kernel l s) 0 [((0 : Vec 1), (1 : ℝ))] f → f 0 = s ^ 2 / (s ^ 2 + 0.001) := by
    rintro l s f ⟨w, hw, h1, h2⟩
    match w, hw with
    | [(x, y, a)], hw =>
      simp only [List.map_cons, List.map_nil, List.cons.injEq, and_true, Prod.mk.injEq] at hw
      obtain ⟨rfl, rfl⟩ := hw
      have h3 := h1 0
      have h4 := h2 (0, 1, a) (by simp)
      simp only [List.map_cons, List.map_nil, List.sum_cons, List.sum_nil, kernel_self] at h3
      simp only at h4
      have hs : (0 : ℝ) < s ^ 2 + 0.001 := by positivity
      rw [eq_div_iff hs.ne']
      have h5 : a * (s ^ 2 + 0.001) = 1 := by linarith
      have h6 : f 0 = a * s ^ 2 := by linarith
      rw [h6]
      linear_combination s ^ 2 * h5
  have hdraw : (((GP.init ([] : List (Vec 1))).run [.addSample 0 1, .testOnArray [0]]).predMean) = [4 / 4.001] := by
    obtain ⟨f, h1, -, h3⟩ := C92_prediction ([] : List (Vec 1)) [.addSample 0 1] _ rfl (by simp [samplesOf, samples]) [0]
    have e : (((GP.init ([] : List (Vec 1))).run [.addSample 0 1, .testOnArray [0]]).predMean) =
        (((GP.init ([] : List (Vec 1))).run [.addSample 0 1]).testOnArray [0]).2 := rfl
    rw [e, h3]
    have := hpost 0.5 2 f h1
    rw [List.map_cons, List.map_nil, this]
    norm_num
  refine ⟨[.addSample 0 1, .testOnArray [0], .setHyper 0.5 1], _, rfl, ?_, ?_⟩
  · have e : (((GP.init ([] : List (Vec 1))).run [.addSample 0 1, .testOnArray [0], .setHyper 0.5 1]).draw.2.1) =
        (((GP.init ([] : List (Vec 1))).run [.addSample 0 1, .testOnArray [0]]).predMean) := by
      have h1 : ((GP.init ([] : List (Vec 1))).run [.addSample 0 1, .testOnArray [0], .setHyper 0.5 1]).calculated = true := by
        simp [GP.run, GP.step, GP.testOnArray, GP.calculate, GP.addSample, GP.init]
      simp only [GP.draw, h1, if_true]
      rfl
    rw [e, hdraw]
  · obtain ⟨f, h1, -, h3⟩ := C92_prediction ([] : List (Vec 1)) [.addSample 0 1, .testOnArray [0], .setHyper 0.5 1] _ rfl
      (by simp [samplesOf, samples]) [0]
    have e : ((GP.init ([] : List (Vec 1))).run [.addSample 0 1, .testOnArray [0], .setHyper 0.5 1]).testx = [0] := by
      simp [GP.run, GP.step, GP.testOnArray, GP.calculate, GP.addSample, GP.init]
    have hh : ((GP.init ([] : List (Vec 1))).run [.addSample 0 1, .testOnArray [0], .setHyper 0.5 1]).hyper = (0.5, 1) := rfl
    have hm : ((GP.init ([] : List (Vec 1))).run [.addSample 0 1, .testOnArray [0], .setHyper 0.5 1]).mean = 0 := by
      simp [GP.run, GP.step, GP.testOnArray, GP.calculate, GP.addSample, GP.init]
    rw [e, h3]
    rw [hh, hm] at h1
    have := hpost 0.5 1 f h1
    rw [List.map_cons, List.map_nil, this]
    norm_num

/-- The hypotheses are met: histories with samples, in two orders. -/
example : samplesOf ([.addSample (fun _ => 0) 1, .draw, .addSample (fun _ => 2) 5] : List (Op 1)) ≠ [] ∧
    (samplesOf ([.addSample (fun _ => 0) 1, .draw, .addSample (fun _ => 2) 5] : List (Op 1))).Perm
      (samplesOf [.trainOnDataset [(fun _ => 2, 5)], .addDataset [(fun _ => 0, 1)]]) :=
  ⟨by simp [samplesOf, samples], by simpa [samplesOf, samples] using List.Perm.swap _ _ _⟩

end Verif.Props

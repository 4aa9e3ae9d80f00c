import Verif.Model.Lora
import Verif.Proof.Truncate
import Mathlib.LinearAlgebra.Matrix.Notation
import Mathlib.Tactic.NormNum
import Mathlib.Tactic.FinCases

/-! # Extracted adapters (C59) -/

namespace Verif.Lora

open Matrix
open Verif.ModelRef (Str)

variable {m n k : Nat}

/-- What a singular value decomposition is (`full_matrices=False`): orthonormal columns of `u`, orthonormal rows of `vh`, singular values that are not
negative and do not increase, and the product is the matrix. -/
structure IsSvd (M : Matrix (Fin m) (Fin n) ℝ) (u : Matrix (Fin m) (Fin k) ℝ) (s : Fin k → ℝ) (vh : Matrix (Fin k) (Fin n) ℝ) : Prop where
  left : uᵀ * u = 1
  right : vh * vhᵀ = 1
  nonneg : ∀ i, 0 ≤ s i
  sorted : ∀ i j, i ≤ j → s j ≤ s i
  product : u * diagonal s * vh = M

section
variable {M : Matrix (Fin m) (Fin n) ℝ} {u : Matrix (Fin m) (Fin k) ℝ} {s : Fin k → ℝ} {vh : Matrix (Fin k) (Fin n) ℝ} {r : Nat}

theorem sum_castLE {f : Fin k → ℝ} (h : r ≤ k) : ∑ i : Fin r, f (Fin.castLE h i) = ∑ i : Fin k, if i.val < r then f i else 0 := by
  obtain ⟨e, rfl⟩ := Nat.exists_eq_add_of_le h
  rw [Fin.sum_univ_add]
  have h1 : ∀ i : Fin r, (if (Fin.castAdd e i).val < r then f (Fin.castAdd e i) else 0) = f (Fin.castLE h i) := by
    intro i; rw [if_pos (by simp)]; rfl
  have h2 : ∀ i : Fin e, (if (Fin.natAdd r i).val < r then f (Fin.natAdd r i) else 0) = 0 := by
    intro i; rw [if_neg (by simp)]
  rw [Finset.sum_congr rfl (fun i _ => h1 i), Finset.sum_congr rfl (fun i _ => h2 i)]
  simp

/-- C59: in both modes the product of the pair is the decomposition cut off after the rank. -/
theorem C59_product (h : r ≤ k) (distribute : Bool) (hs : ∀ i, 0 ≤ s i) (a : Fin m) (b : Fin n) :
    (weightB h distribute s u * weightA h distribute s vh) a b = ∑ i : Fin k, if i.val < r then u a i * s i * vh i b else 0 := by
  rw [← sum_castLE (f := fun i => u a i * s i * vh i b) h, mul_apply]
  refine Finset.sum_congr rfl (fun i _ => ?_)
  cases distribute with
  | true =>
    simp only [weightA, weightB, scaleA, scaleB, if_true, mul_diagonal, diagonal_mul, submatrix_apply, id, firstOf]
    have := Real.mul_self_sqrt (hs (Fin.castLE h i))
    calc u a (Fin.castLE h i) * √(s (Fin.castLE h i)) * (√(s (Fin.castLE h i)) * vh (Fin.castLE h i) b)
        = u a (Fin.castLE h i) * (√(s (Fin.castLE h i)) * √(s (Fin.castLE h i))) * vh (Fin.castLE h i) b := by ring
      _ = _ := by rw [this]
  | false =>
    simp only [weightA, weightB, scaleA, scaleB, Bool.false_eq_true, if_false, Matrix.mul_one, diagonal_mul, submatrix_apply, id, firstOf]
    ring

theorem product_upTo (h : r ≤ k) (distribute : Bool) (hs : ∀ i, 0 ≤ s i) :
    weightB h distribute s u * weightA h distribute s vh = u * diagonal (upTo r s) * vh := by
  ext a b
  rw [C59_product h distribute hs, mul_apply]
  refine Finset.sum_congr rfl (fun i _ => ?_)
  rw [mul_diagonal, upTo]
  split <;> simp

/-- C59: what is lost is what the singular values beyond the rank say. -/
theorem C59_error (hsvd : IsSvd M u s vh) (h : r ≤ k) (distribute : Bool) :
    sumSq (M - weightB h distribute s u * weightA h distribute s vh) = ∑ i : Fin k, if i.val < r then 0 else s i ^ 2 := by
  rw [product_upTo h distribute hsvd.nonneg, ← hsvd.product]
  have he : u * diagonal s * vh - u * diagonal (upTo r s) * vh = u * diagonal (fun i => if i.val < r then 0 else s i) * vh := by
    rw [← Matrix.sub_mul, ← Matrix.mul_sub, diagonal_sub]
    congr 3
    ext i
    simp only [upTo]
    split <;> simp
  rw [he, sumSq_svd hsvd.left hsvd.right]
  refine Finset.sum_congr rfl (fun i _ => ?_)
  split <;> simp

/-- C59: no pair of matrices of the same rank comes closer to the difference of the models (sum of squares of all entries). -/
theorem C59_best (hsvd : IsSvd M u s vh) (h : r ≤ k) (distribute : Bool) (b : Matrix (Fin m) (Fin r) ℝ) (a : Matrix (Fin r) (Fin n) ℝ) :
    sumSq (M - weightB h distribute s u * weightA h distribute s vh) ≤ sumSq (M - b * a) := by
  rw [C59_error hsvd h distribute]
  have := truncate_best (r := r) hsvd.left hsvd.right hsvd.nonneg hsvd.sorted b a
  rwa [hsvd.product] at this

/-- C59: if the models differ by a pair of matrices of that rank at most, the extracted pair multiplies to the difference exactly. -/
theorem C59_exact (hsvd : IsSvd M u s vh) (h : r ≤ k) (distribute : Bool)
    (hM : ∃ (b : Matrix (Fin m) (Fin r) ℝ) (a : Matrix (Fin r) (Fin n) ℝ), M = b * a) :
    weightB h distribute s u * weightA h distribute s vh = M := by
  obtain ⟨b, a, hba⟩ := hM
  have h1 := C59_best hsvd h distribute b a
  rw [← hba, sub_self] at h1
  have h0 : sumSq (0 : Matrix (Fin m) (Fin n) ℝ) = 0 := by simp [sumSq]
  rw [h0] at h1
  exact (sub_eq_zero.mp (sumSq_eq_zero h1)).symm

/-- C59: with a rank limit that allows it and no threshold, the pair multiplies to the difference. -/
theorem C59_full_rank (hsvd : IsSvd M u s vh) (maxRank : Nat) (hmax : k ≤ maxRank) (eps : ℝ) (heps : eps ≤ 0) (distribute : Bool) :
    weightB (rankOf_le maxRank eps s) distribute s u * weightA (rankOf_le maxRank eps s) distribute s vh = M := by
  have hr : rankOf maxRank eps s = k := by rw [rankOf, if_neg (not_lt.mpr heps)]; omega
  rw [product_upTo _ distribute hsvd.nonneg, ← hsvd.product]
  congr 3
  ext i
  rw [upTo, if_pos (by rw [hr]; exact i.isLt)]

/-- In a list that does not increase, the entries above a threshold come first. -/
theorem above_first (hs : ∀ i j : Fin k, i ≤ j → s j ≤ s i) (eps : ℝ) (i : Fin k) :
    eps < s i ↔ i.val < (Finset.univ.filter (fun j => eps < s j)).card := by
  constructor
  · intro hi
    have hsub : Finset.univ.filter (fun j : Fin k => j.val < i.val + 1) ⊆ Finset.univ.filter (fun j => eps < s j) := by
      intro j hj
      rw [Finset.mem_filter] at hj ⊢
      refine ⟨Finset.mem_univ _, lt_of_lt_of_le hi (hs j i ?_)⟩
      exact Fin.le_def.mpr (by omega)
    have hc := Finset.card_le_card hsub
    rw [Fin.card_filter_val_lt] at hc
    have := i.isLt
    omega
  · intro hi
    by_contra hn
    have hsub : Finset.univ.filter (fun j => eps < s j) ⊆ Finset.univ.filter (fun j : Fin k => j.val < i.val) := by
      intro j hj
      rw [Finset.mem_filter] at hj ⊢
      refine ⟨Finset.mem_univ _, ?_⟩
      by_contra hc
      exact hn (lt_of_lt_of_le hj.2 (hs i j (Fin.le_def.mpr (by omega))))
    have hc := Finset.card_le_card hsub
    rw [Fin.card_filter_val_lt] at hc
    have := i.isLt
    omega

/-- C59: the rank keeps exactly the singular values within the rank limit that are above the threshold, if there is one. -/
theorem C59_rank (hsvd : IsSvd M u s vh) (maxRank : Nat) (eps : ℝ) (i : Fin k) :
    i.val < rankOf maxRank eps s ↔ i.val < maxRank ∧ (0 < eps → eps < s i) := by
  have := i.isLt
  rw [rankOf]
  split
  · rename_i he
    rw [above_first hsvd.sorted eps i]
    constructor
    · intro h; exact ⟨by omega, fun _ => by omega⟩
    · rintro ⟨h1, h2⟩; have := h2 he; omega
  · rename_i he
    constructor
    · intro h; exact ⟨by omega, fun h' => absurd h' he⟩
    · rintro ⟨h1, _⟩; omega

/-- C59: embeddings are decomposed transposed; PEFT transposes the product (not code of the repository), which again is the difference. -/
theorem C59_embedding {E : Matrix (Fin n) (Fin m) ℝ} (hsvd : IsSvd Eᵀ u s vh) (h : r ≤ k) (distribute : Bool)
    (hM : ∃ (b : Matrix (Fin m) (Fin r) ℝ) (a : Matrix (Fin r) (Fin n) ℝ), Eᵀ = b * a) :
    (weightB h distribute s u * weightA h distribute s vh)ᵀ = E := by
  rw [C59_exact hsvd h distribute hM, transpose_transpose]

end

/-! ## Recorded ranks -/

theorem foldl_max_ge (l : List Nat) (a : Nat) : a ≤ l.foldl max a ∧ ∀ x ∈ l, x ≤ l.foldl max a := by
  induction l generalizing a with
  | nil => simp
  | cons b l ih =>
    obtain ⟨h1, h2⟩ := ih (max a b)
    simp only [List.foldl_cons, List.mem_cons]
    refine ⟨by omega, ?_⟩
    rintro x (rfl | hx)
    · omega
    · exact h2 x hx

/-- No module's name is another's behind a dot. -/
def Unnested (ranks : List (Str × Nat)) : Prop := ∀ e ∈ ranks, ∀ e' ∈ ranks, ¬ ('.' :: e'.1) <:+ e.1

theorem peftValue_filter {ranks : List (Str × Nat)} (hn : (ranks.map Prod.fst).Nodup) (hu : Unnested ranks) (top : Nat) {e : Str × Nat} (he : e ∈ ranks) :
    peftValue (ranks.filter (fun x => decide (x.2 ≠ top))) top e.1 = e.2 := by
  unfold peftValue
  split
  · rename_i e' hf
    have hm := (List.mem_filter.mp (List.mem_of_find?_eq_some hf)).1
    have hp := List.find?_some hf
    rw [Bool.or_eq_true, decide_eq_true_eq, List.isSuffixOf_iff_suffix] at hp
    rcases hp with hp | hp
    · rw [List.inj_on_of_nodup_map hn he hm hp]
    · exact absurd hp (hu e he e' hm)
  · rename_i hf
    by_contra hne
    rw [List.find?_eq_none] at hf
    have := hf e (List.mem_filter.mpr ⟨he, by rw [decide_eq_true_eq]; exact fun h => hne h.symm⟩)
    simp at this

/-- C59: rank and alpha that PEFT reads for a decomposed module are both its true rank, so that the scale is one; no rank is larger than the default
one. -/
theorem C59_recorded_partial {ranks : List (Str × Nat)} {save : List Str} {c : Config} (hn : (ranks.map Prod.fst).Nodup) (hu : Unnested ranks)
    (h : makeConfig ranks save = .ok c) :
    c.modulesToSave = save ∧ ∀ e ∈ ranks, peftValue c.rankPattern c.r e.1 = e.2 ∧ peftValue c.alphaPattern c.alpha e.1 = e.2 ∧ e.2 ≤ c.r ∧
      lastPart e.1 ∈ c.targetModules := by
  cases ranks with
  | nil => exact absurd h (by simp [makeConfig])
  | cons e0 es =>
    cases h
    refine ⟨rfl, ?_⟩
    intro e he
    refine ⟨peftValue_filter hn hu _ he, peftValue_filter hn hu _ he, ?_, ?_⟩
    · obtain ⟨h1, h2⟩ := foldl_max_ge (es.map Prod.snd) e0.2
      rcases List.mem_cons.mp he with rfl | he
      · exact h1
      · exact h2 _ (List.mem_map.mpr ⟨e, he, rfl⟩)
    · rw [List.mem_eraseDups]
      exact List.mem_map.mpr ⟨e, he, rfl⟩

/-- C59: without a decomposed module the run fails (after everything has been written), with one it does not. -/
theorem C59_config_total (ranks : List (Str × Nat)) (save : List Str) : (∃ c, makeConfig ranks save = .ok c) ↔ ranks ≠ [] := by
  cases ranks <;> simp [makeConfig]

/-- C59, a case not covered: a module with the default rank whose name ends in another one's is read with that one's rank. -/
theorem C59_nested_names :
    ∃ c, makeConfig [(cs!"head", 2), (cs!"aux.head", 3)] [] = .ok c ∧ peftValue c.rankPattern c.r cs!"aux.head" = 2 := ⟨_, rfl, by decide⟩

/-- C59, put together: with a positive rank that is enough for the difference, the base model plus the scaled product is the fine-tuned model. -/
theorem C59_restores_partial {base model : Matrix (Fin m) (Fin n) ℝ} {u : Matrix (Fin m) (Fin k) ℝ} {s : Fin k → ℝ} {vh : Matrix (Fin k) (Fin n) ℝ}
    {tv : Matrix (Fin m) (Fin n) ℝ} (htv : taskVector (some base) (some model) = .ok tv) (hsvd : IsSvd tv u s vh) (maxRank : Nat) (eps : ℝ)
    (distribute : Bool) {ranks : List (Str × Nat)} {save : List Str} {c : Config} {name : Str} (hn : (ranks.map Prod.fst).Nodup) (hu : Unnested ranks)
    (hc : makeConfig ranks save = .ok c) (hr : (name, rankOf maxRank eps s) ∈ ranks) (h0 : 0 < rankOf maxRank eps s)
    (hM : ∃ (b : Matrix (Fin m) (Fin (rankOf maxRank eps s)) ℝ) (a : Matrix (Fin (rankOf maxRank eps s)) (Fin n) ℝ), model - base = b * a) :
    base + ((peftValue c.alphaPattern c.alpha name : ℝ) / (peftValue c.rankPattern c.r name : ℝ)) •
      (weightB (rankOf_le maxRank eps s) distribute s u * weightA (rankOf_le maxRank eps s) distribute s vh) = model := by
  obtain ⟨h1, h2, _⟩ := (C59_recorded_partial hn hu hc).2 _ hr
  simp only at h1 h2
  cases htv
  rw [C59_exact hsvd _ distribute hM, h1, h2, div_self (by exact_mod_cast h0.ne'), one_smul, add_sub_cancel]

/-- A diagonal matrix with entries 3 and 1, decomposed. -/
theorem svd_example : IsSvd (m := 2) (n := 2) (k := 2) !![0, 3; 1, 0] 1 ![3, 1] !![0, 1; 1, 0] := by
  refine ⟨by simp, ?_, ?_, ?_, ?_⟩
  · ext i j; fin_cases i <;> fin_cases j <;> simp [Matrix.mul_apply]
  · intro i; fin_cases i <;> simp
  · intro i j hij; fin_cases i <;> fin_cases j <;> simp_all
  · ext i j; fin_cases i <;> fin_cases j <;> simp [Matrix.mul_apply, diagonal]

/-- Of a difference of rank one, the rank 1 of 128 allowed is kept with a threshold. -/
theorem svd_rank_one : IsSvd (m := 2) (n := 2) (k := 2) !![0, 3; 0, 0] 1 ![3, 0] !![0, 1; 1, 0] ∧ rankOf 128 (1 / 2) ![(3 : ℝ), 0] = 1 := by
  refine ⟨⟨by simp, ?_, ?_, ?_, ?_⟩, ?_⟩
  · ext i j; fin_cases i <;> fin_cases j <;> simp [Matrix.mul_apply]
  · intro i; fin_cases i <;> simp
  · intro i j hij; fin_cases i <;> fin_cases j <;> simp_all
  · ext i j; fin_cases i <;> fin_cases j <;> simp [Matrix.mul_apply, diagonal]
  · have hf : Finset.univ.filter (fun i : Fin 2 => (1 / 2 : ℝ) < ![(3 : ℝ), 0] i) = {0} := by
      ext i; fin_cases i <;> norm_num
    rw [rankOf, if_pos (by norm_num), hf]
    decide

/-- It is a product of thin matrices. -/
example : ∃ (b : Matrix (Fin 2) (Fin 1) ℝ) (a : Matrix (Fin 1) (Fin 2) ℝ), !![0, 3; 0, 0] = b * a :=
  ⟨!![3; 0], !![0, 1], by ext i j; fin_cases i <;> fin_cases j <;> simp [Matrix.mul_apply]⟩

/-- Recorded ranks. -/
example : ∃ c, makeConfig [(cs!"layers.0.q", 2), (cs!"layers.0.k", 3), (cs!"layers.1.q", 1)] [cs!"norm"] = .ok c ∧ c.r = 3 ∧
    c.rankPattern = [(cs!"layers.0.q", 2), (cs!"layers.1.q", 1)] ∧ c.targetModules = [cs!"q", cs!"k"] ∧
    peftValue c.rankPattern c.r cs!"layers.1.q" = 1 ∧ peftValue c.rankPattern c.r cs!"layers.0.k" = 3 :=
  ⟨_, rfl, by decide, by decide, by decide, by decide, by decide⟩

example : Unnested [(cs!"layers.0.q", 2), (cs!"layers.0.k", 3), (cs!"layers.1.q", 1)] ∧
    ([(cs!"layers.0.q", 2), (cs!"layers.0.k", 3), (cs!"layers.1.q", 1)].map Prod.fst).Nodup := by
  refine ⟨?_, by decide⟩
  intro e he e' he'
  rw [← List.isSuffixOf_iff_suffix]
  revert e e'
  decide

end Verif.Lora

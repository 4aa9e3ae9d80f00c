import Verif.Model.Landmarks
import Mathlib.Analysis.InnerProductSpace.Projection.Basic
import Mathlib.Analysis.InnerProductSpace.Projection.FiniteDimensional
import Mathlib.Tactic.Linarith
import Mathlib.Tactic.Ring
import Mathlib.Tactic.Positivity
import Mathlib.Tactic.FieldSimp

/-! # Interpolation between shared tokens (C82) -/

namespace Verif.Landmarks

open Finset

/-! ## What is assumed of the libraries -/

/-- The positions of the `k` smallest of the first `n` values. -/
def IsTopk (topk : (n k : Nat) → (Nat → ℝ) → List Nat) : Prop :=
  ∀ n k d, k ≤ n → (topk n k d).length = k ∧ (topk n k d).Nodup ∧ (∀ i ∈ topk n k d, i < n) ∧ ∀ i ∈ topk n k d, ∀ j < n, j ∉ topk n k d → d i ≤ d j

/-- A solution of the least squares problem. -/
def IsLstsq (lstsq : {m n : Nat} → (Fin m → Fin n → ℝ) → (Fin m → ℝ) → Fin n → ℝ) : Prop :=
  ∀ {m n : Nat} (a : Fin m → Fin n → ℝ) (b : Fin m → ℝ) (x : Fin n → ℝ),
    ∑ i, (∑ j, a i j * lstsq a b j - b i) ^ 2 ≤ ∑ i, (∑ j, a i j * x j - b i) ^ 2

/-- In a finite dimensional space the closest combination of vectors exists. -/
theorem closest {E : Type} [NormedAddCommGroup E] [InnerProductSpace ℝ E] {n : Nat} (v : Fin n → E) (t : E) :
    ∃ c : Fin n → ℝ, ∀ j, inner ℝ (t - ∑ i, c i • v i) (v j) = (0 : ℝ) := by
  haveI : FiniteDimensional ℝ (Submodule.span ℝ (Set.range v)) := FiniteDimensional.span_of_finite ℝ (Set.finite_range v)
  have hm := (Submodule.span ℝ (Set.range v)).starProjection_apply_mem t
  obtain ⟨c, hc⟩ := (Submodule.mem_span_range_iff_exists_fun ℝ).mp hm
  refine ⟨c, fun j => ?_⟩
  rw [hc]
  have ho := (Submodule.span ℝ (Set.range v)).sub_starProjection_mem_orthogonal t
  rw [Submodule.mem_orthogonal'] at ho
  exact ho (v j) (Submodule.subset_span ⟨j, rfl⟩)

theorem combo_coord {dim n : Nat} (p : Fin n → Vec dim) (w : Fin n → ℝ) (a : Fin dim) : (∑ i, w i • p i) a = ∑ i, p i a * w i := by
  rw [WithLp.ofLp_sum, Finset.sum_apply]
  refine Finset.sum_congr rfl (fun i _ => ?_)
  simp [mul_comm]

theorem norm_sq_sub {dim : Nat} (t x : Vec dim) : ‖t - x‖ ^ 2 = ∑ a, (x a - t a) ^ 2 := by
  rw [EuclideanSpace.norm_sq_eq]
  refine Finset.sum_congr rfl (fun a _ => ?_)
  rw [Real.norm_eq_abs, sq_abs]
  simp only [PiLp.sub_apply]
  ring

/-- The residual that is orthogonal to all vectors is the shortest. -/
theorem orth_least {E : Type} [NormedAddCommGroup E] [InnerProductSpace ℝ E] {n : Nat} (v : Fin n → E) (t : E) (c x : Fin n → ℝ)
    (h : inner ℝ (t - ∑ i, c i • v i) (∑ i, (c i - x i) • v i) = (0 : ℝ)) : ‖t - ∑ i, c i • v i‖ ≤ ‖t - ∑ i, x i • v i‖ := by
  have he : t - ∑ i, x i • v i = (t - ∑ i, c i • v i) + ∑ i, (c i - x i) • v i := by
    simp only [sub_smul, Finset.sum_sub_distrib]
    abel
  have hs := norm_add_sq_real (t - ∑ i, c i • v i) (∑ i, (c i - x i) • v i)
  rw [← he, h] at hs
  refine (sq_le_sq₀ (norm_nonneg _) (norm_nonneg _)).mp ?_
  rw [hs]
  nlinarith [sq_nonneg ‖∑ i, (c i - x i) • v i‖]

theorem lsq_exists {m n : Nat} (a : Fin m → Fin n → ℝ) (b : Fin m → ℝ) :
    ∃ x : Fin n → ℝ, ∀ y : Fin n → ℝ, ∑ i, (∑ j, a i j * x j - b i) ^ 2 ≤ ∑ i, (∑ j, a i j * y j - b i) ^ 2 := by
  obtain ⟨c, hc⟩ := closest (fun j => (WithLp.toLp 2 (fun i => a i j) : Vec m)) (WithLp.toLp 2 b)
  refine ⟨c, fun y => ?_⟩
  have h := orth_least (fun j => (WithLp.toLp 2 (fun i => a i j) : Vec m)) (WithLp.toLp 2 b) c y (by
    rw [inner_sum]
    exact Finset.sum_eq_zero (fun j _ => by rw [inner_smul_right, hc j, mul_zero]))
  have h2 := (sq_le_sq₀ (norm_nonneg _) (norm_nonneg _)).mpr h
  rw [norm_sq_sub, norm_sq_sub] at h2
  simpa only [combo_coord] using h2

/-! ## Weights -/

theorem raw_pos (d : ℝ) : 0 < rawWeight false d := by
  unfold rawWeight
  simp only [Bool.false_eq_true, if_false]
  exact one_div_pos.mpr (lt_of_lt_of_le (by norm_num) (le_max_right _ _))

theorem prop_sum {n : Nat} (cosine : Bool) (d : Fin n → ℝ) (h : 1 / 1000000 ≤ ∑ j, rawWeight cosine (d j)) : ∑ i, proportional cosine d i = 1 := by
  unfold proportional
  rw [← Finset.sum_div, max_eq_left h]
  exact div_self (lt_of_lt_of_le (by norm_num) h).ne'

theorem prop_sum_small {n : Nat} (cosine : Bool) (d : Fin n → ℝ) (h : ∑ j, rawWeight cosine (d j) < 1 / 1000000) :
    ∑ i, proportional cosine d i = 1000000 * ∑ j, rawWeight cosine (d j) := by
  unfold proportional
  rw [← Finset.sum_div, max_eq_right h.le]
  ring

theorem raw_sum_ge {n : Nat} (d : Fin n → ℝ) {i : Fin n} (h : d i ≤ 1000000) : 1 / 1000000 ≤ ∑ j, rawWeight false (d j) := by
  refine le_trans ?_ (Finset.single_le_sum (f := fun j => rawWeight false (d j)) (fun j _ => (raw_pos (d j)).le) (Finset.mem_univ i))
  simp only [rawWeight, Bool.false_eq_true, if_false]
  exact one_div_le_one_div_of_le (lt_of_lt_of_le (by norm_num) (le_max_right _ _)) (max_le h (by norm_num))

/-- The error of weights that sum to one. -/
theorem blend_error {dim n : Nat} (p : Fin n → Vec dim) (t : Vec dim) (w : Fin n → ℝ) (hw : ∑ i, w i = 1) (hpos : ∀ i, 0 ≤ w i) :
    ‖t - ∑ i, w i • p i‖ ≤ ∑ i, w i * ‖t - p i‖ := by
  have : t - ∑ i, w i • p i = ∑ i, w i • (t - p i) := by
    simp only [smul_sub, Finset.sum_sub_distrib, ← Finset.sum_smul, hw, one_smul]
  rw [this]
  refine (norm_sum_le _ _).trans (Finset.sum_le_sum (fun i _ => ?_))
  rw [norm_smul, Real.norm_eq_abs, abs_of_nonneg (hpos i)]

/-! ## The barycentric system -/

theorem bordered_row {dim n : Nat} (p : Fin n → Vec dim) (x : Fin (n + 1) → ℝ) (i : Fin n) :
    ∑ j, bordered p i.castSucc j * x j = inner ℝ (p i) (∑ j : Fin n, x j.castSucc • p j) + x (Fin.last n) := by
  rw [Fin.sum_univ_castSucc, inner_sum]
  congr 1
  · refine Finset.sum_congr rfl (fun j _ => ?_)
    rw [inner_smul_right]
    simp [bordered, mul_comm]
  · simp [bordered]

theorem bordered_last {dim n : Nat} (p : Fin n → Vec dim) (x : Fin (n + 1) → ℝ) : ∑ j, bordered p (Fin.last n) j * x j = ∑ j : Fin n, x j.castSucc := by
  rw [Fin.sum_univ_castSucc]
  simp [bordered]

theorem rhs_row {dim n : Nat} (p : Fin n → Vec dim) (t : Vec dim) (i : Fin n) : borderedRhs t p i.castSucc = inner ℝ t (p i) := by
  simp [borderedRhs]

theorem rhs_last {dim n : Nat} (p : Fin n → Vec dim) (t : Vec dim) : borderedRhs t p (Fin.last n) = 1 := by
  simp [borderedRhs]

/-- The system always has a solution. -/
theorem bordered_solvable {dim n : Nat} (p : Fin (n + 1) → Vec dim) (t : Vec dim) :
    ∃ x : Fin (n + 2) → ℝ, ∀ i, ∑ j, bordered p i j * x j - borderedRhs t p i = 0 := by
  obtain ⟨c, hc⟩ := closest (fun j => p j - p 0) (t - p 0)
  -- the weights: the first takes what is left to one
  let w : Fin (n + 1) → ℝ := fun i => c i + if i = 0 then 1 - ∑ j, c j else 0
  have hw : ∑ i, w i = 1 := by
    simp only [w, Finset.sum_add_distrib, Finset.sum_ite_eq', Finset.mem_univ, if_true]
    ring
  have hcomb : t - ∑ i, w i • p i = t - p 0 - ∑ i, c i • (p i - p 0) := by
    simp only [w, add_smul, ite_smul, zero_smul, Finset.sum_add_distrib, Finset.sum_ite_eq', Finset.mem_univ, if_true, smul_sub, Finset.sum_sub_distrib,
      ← Finset.sum_smul, sub_smul, one_smul]
    abel
  have horth : ∀ j, inner ℝ (t - ∑ i, w i • p i) (p j) = inner ℝ (t - ∑ i, w i • p i) (p 0) := by
    intro j
    have := hc j
    rw [← hcomb, inner_sub_right] at this
    linarith
  refine ⟨Fin.snoc w (inner ℝ (t - ∑ i, w i • p i) (p 0)), fun i => ?_⟩
  refine Fin.lastCases ?_ (fun i => ?_) i
  · rw [bordered_last, rhs_last]
    simp only [Fin.snoc_castSucc, hw, sub_self]
  · rw [bordered_row, rhs_row]
    simp only [Fin.snoc_castSucc, Fin.snoc_last]
    rw [← horth i, real_inner_comm (p i) (t - _), inner_sub_right, real_inner_comm (p i) t]
    ring

/-- The barycentric weights sum to one and what they leave has the same product with all points. -/
theorem barycentric_spec {o : Oracle} (ho : IsLstsq o.lstsq) {dim n : Nat} (hn : 0 < n) (t : Vec dim) (p : Fin n → Vec dim) :
    ∑ i, barycentric o t p i = 1 ∧ ∃ l : ℝ, ∀ j, inner ℝ (t - ∑ i, barycentric o t p i • p i) (p j) = l := by
  obtain ⟨m, rfl⟩ := Nat.exists_eq_succ_of_ne_zero hn.ne'
  obtain ⟨x, hx⟩ := bordered_solvable p t
  have h := ho (bordered p) (borderedRhs t p) x
  simp only [hx, ne_eq, OfNat.ofNat_ne_zero, not_false_eq_true, zero_pow, Finset.sum_const_zero] at h
  have h0 := (Finset.sum_eq_zero_iff_of_nonneg (fun i _ => sq_nonneg _)).mp (le_antisymm h (Finset.sum_nonneg (fun i _ => sq_nonneg _)))
  have heq : ∀ i, ∑ j, bordered p i j * o.lstsq (bordered p) (borderedRhs t p) j = borderedRhs t p i := by
    intro i
    have := pow_eq_zero_iff (two_ne_zero) |>.mp (h0 i (Finset.mem_univ i))
    linarith
  have hb : ∀ i : Fin (m + 1), o.lstsq (bordered p) (borderedRhs t p) i.castSucc = barycentric o t p i := fun i => rfl
  constructor
  · have := heq (Fin.last (m + 1))
    rw [bordered_last, rhs_last] at this
    simpa only [hb] using this
  · refine ⟨o.lstsq (bordered p) (borderedRhs t p) (Fin.last (m + 1)), fun j => ?_⟩
    have := heq j.castSucc
    rw [bordered_row, rhs_row] at this
    simp only [hb] at this
    rw [inner_sub_left, ← this, real_inner_comm (p j)]
    ring

/-! ## C82 -/

/-- The combination of points with weights. -/
noncomputable def blend {dim : Nat} (points : Nat → Vec dim) (res : List (Nat × ℝ)) : Vec dim := (res.map (fun e => e.2 • points e.1)).sum

theorem blend_ofFn {dim : Nat} (points : Nat → Vec dim) (idx : List Nat) (w : Fin idx.length → ℝ) :
    blend points (List.ofFn (fun i => (idx.get i, w i))) = ∑ i, w i • points (idx.get i) := by
  unfold blend
  rw [List.map_ofFn, List.sum_ofFn]
  rfl

theorem weights_ofFn (idx : List Nat) (w : Fin idx.length → ℝ) : ((List.ofFn (fun i => (idx.get i, w i))).map Prod.snd).sum = ∑ i, w i := by
  rw [List.map_ofFn, List.sum_ofFn]
  rfl

theorem fst_ofFn (idx : List Nat) (w : Fin idx.length → ℝ) : (List.ofFn (fun i => (idx.get i, w i))).map Prod.fst = idx := by
  rw [List.map_ofFn]
  exact List.ofFn_get idx

theorem as_ofFn {idx : List Nat} {other : List (Nat × ℝ)} (h : other.map Prod.fst = idx) : ∃ w : Fin idx.length → ℝ, other = List.ofFn (fun i => (idx.get i, w i)) := by
  subst h
  refine ⟨fun i => (other.get ⟨i.1, by simpa using i.2⟩).2, ?_⟩
  apply List.ext_getElem
  · simp
  · intro i h1 h2
    simp

theorem interpolate_ok {o : Oracle} {dim count : Nat} {points : Nat → Vec dim} {target : Vec dim} {k : Option Int} {metric : Metric} {scheme : Scheme}
    {res : List (Nat × ℝ)} (h : interpolate o count points target k metric scheme = .ok res) :
    ∃ idx, neighbours o count k (fun i => distance metric target (points i)) = .ok idx ∧ res = List.ofFn (fun i : Fin idx.length =>
      (idx.get i, weights o scheme (decide (metric = .cosine)) target (fun j => points (idx.get j)) (fun j => distance metric target (points (idx.get j))) i)) := by
  unfold interpolate at h
  split at h
  · cases h
  · rename_i idx hidx
    cases h
    exact ⟨idx, hidx, rfl⟩

/-- The `k` nearest candidates are used, or all of them; the command is refused exactly when there is no such number of candidates. -/
theorem C82_neighbours {o : Oracle} (ho : IsTopk o.topk) {dim count : Nat} {points : Nat → Vec dim} {target : Vec dim} {metric : Metric} {scheme : Scheme} :
    (∃ res, interpolate o count points target none metric scheme = .ok res ∧ res.map Prod.fst = List.range count) ∧
    ∀ k : Int, ((∃ res, interpolate o count points target (some k) metric scheme = .ok res) ↔ 0 < k ∧ k ≤ count) ∧
      ∀ res, interpolate o count points target (some k) metric scheme = .ok res → res.length = k.toNat ∧ (res.map Prod.fst).Nodup ∧ (∀ e ∈ res, e.1 < count) ∧
        ∀ e ∈ res, ∀ j < count, j ∉ res.map Prod.fst → distance metric target (points e.1) ≤ distance metric target (points j) := by
  refine ⟨⟨_, rfl, fst_ofFn _ _⟩, fun k => ⟨?_, ?_⟩⟩
  · constructor
    · rintro ⟨res, h⟩
      obtain ⟨idx, hidx, _⟩ := interpolate_ok h
      simp only [neighbours] at hidx
      split at hidx
      · cases hidx
      · split at hidx
        · cases hidx
        · omega
    · rintro ⟨h1, h2⟩
      unfold interpolate neighbours
      simp only [if_neg (show ¬ k ≤ 0 by omega), if_neg (show ¬ (count : Int) < k by omega)]
      exact ⟨_, rfl⟩
  · intro res h
    obtain ⟨idx, hidx, rfl⟩ := interpolate_ok h
    simp only [neighbours] at hidx
    split at hidx
    · cases hidx
    · split at hidx
      · cases hidx
      · cases hidx
        obtain ⟨h1, h2, h3, h4⟩ := ho count k.toNat (fun i => distance metric target (points i)) (by omega)
        have hmem : ∀ {α : Type} {l : List Nat} {w : Fin l.length → α} {e : Nat × α}, e ∈ List.ofFn (fun i => (l.get i, w i)) → e.1 ∈ l := by
          intro α l w e he
          rw [List.mem_ofFn] at he
          obtain ⟨i, rfl⟩ := he
          exact List.get_mem _ _
        rw [fst_ofFn]
        refine ⟨by rw [List.length_ofFn]; exact h1, h2, fun e he => h3 _ (hmem he), fun e he j hj hn => h4 _ (hmem he) j hj hn⟩

/-- Weights by distance: positive, larger for closer points, at most one together. -/
theorem C82_distance {o : Oracle} {dim count : Nat} {points : Nat → Vec dim} {target : Vec dim} {k : Option Int}
    {res : List (Nat × ℝ)} (h : interpolate o count points target k .euclidean .distanceProportional = .ok res) :
    (∀ e ∈ res, 0 < e.2) ∧ (∀ e ∈ res, ∀ e' ∈ res, ‖target - points e.1‖ ≤ ‖target - points e'.1‖ → e'.2 ≤ e.2) ∧
    (∀ e ∈ res, ∀ e' ∈ res, 1 / 1000000 ≤ ‖target - points e.1‖ → 1 / 1000000 ≤ ‖target - points e'.1‖ → e.2 * ‖target - points e.1‖ = e'.2 * ‖target - points e'.1‖) ∧
    (res.map Prod.snd).sum ≤ 1 := by
  obtain ⟨idx, _, rfl⟩ := interpolate_ok h
  have hM : 0 < max (∑ j, rawWeight false (distance .euclidean target (points (idx.get j)))) (1 / 1000000) := lt_of_lt_of_le (by norm_num) (le_max_right _ _)
  refine ⟨?_, ?_, ?_, ?_⟩
  · intro e he
    rw [List.mem_ofFn] at he
    obtain ⟨i, rfl⟩ := he
    exact div_pos (raw_pos _) hM
  · intro e he e' he' hle
    rw [List.mem_ofFn] at he he'
    obtain ⟨i, rfl⟩ := he
    obtain ⟨i', rfl⟩ := he'
    refine div_le_div_of_nonneg_right ?_ hM.le
    simp only [rawWeight, reduceCtorEq, decide_false, Bool.false_eq_true, if_false, distance]
    exact one_div_le_one_div_of_le (lt_of_lt_of_le (by norm_num) (le_max_right _ _)) (max_le_max_right _ hle)
  · intro e he e' he' h1 h2
    rw [List.mem_ofFn] at he he'
    obtain ⟨i, rfl⟩ := he
    obtain ⟨i', rfl⟩ := he'
    simp only [] at h1 h2
    simp only [weights, proportional, rawWeight, reduceCtorEq, decide_false, Bool.false_eq_true, if_false, distance] at hM ⊢
    rw [max_eq_left h1, max_eq_left h2]
    have a1 : ‖target - points (idx.get i)‖ ≠ 0 := (lt_of_lt_of_le (by norm_num) h1).ne'
    have a2 : ‖target - points (idx.get i')‖ ≠ 0 := (lt_of_lt_of_le (by norm_num) h2).ne'
    field_simp
  · rw [weights_ofFn]
    simp only [weights, reduceCtorEq, decide_false]
    by_cases hs : 1 / 1000000 ≤ ∑ j, rawWeight false (distance .euclidean target (points (idx.get j)))
    · rw [prop_sum _ _ hs]
    · push Not at hs
      rw [prop_sum_small _ _ hs]
      linarith

/-- C82 for weights by distance, as long as some neighbour is within 1000000: the weights sum to one, the blend is as close as the farthest neighbour, and nearly meets a
target that is one of the neighbours. -/
theorem C82_distance_partial {o : Oracle} {dim count : Nat} {points : Nat → Vec dim} {target : Vec dim} {k : Option Int}
    {res : List (Nat × ℝ)} (h : interpolate o count points target k .euclidean .distanceProportional = .ok res)
    (hnear : ∃ e ∈ res, ‖target - points e.1‖ ≤ 1000000) :
    (res.map Prod.snd).sum = 1 ∧ (∀ r : ℝ, (∀ e ∈ res, ‖target - points e.1‖ ≤ r) → ‖target - blend points res‖ ≤ r) ∧
    ((∃ e ∈ res, points e.1 = target) → ‖target - blend points res‖ ≤ res.length / 1000000) := by
  obtain ⟨hpos, _⟩ := C82_distance h
  obtain ⟨idx, _, hres⟩ := interpolate_ok h
  have hmem : ∀ i : Fin idx.length, (idx.get i, weights o .distanceProportional (decide (Metric.euclidean = .cosine)) target (fun j => points (idx.get j))
      (fun j => distance .euclidean target (points (idx.get j))) i) ∈ res := by
    intro i; rw [hres, List.mem_ofFn]; exact ⟨i, rfl⟩
  have hraw : 1 / 1000000 ≤ ∑ j, rawWeight false (distance .euclidean target (points (idx.get j))) := by
    obtain ⟨e, he, hd⟩ := hnear
    rw [hres, List.mem_ofFn] at he
    obtain ⟨i, rfl⟩ := he
    exact raw_sum_ge (fun j => distance .euclidean target (points (idx.get j))) (i := i) hd
  have hsum := prop_sum false (fun j => distance .euclidean target (points (idx.get j))) hraw
  have hs : (res.map Prod.snd).sum = 1 := by
    rw [hres, weights_ofFn]
    exact hsum
  have hb : blend points res = ∑ i : Fin idx.length, proportional false (fun j => distance .euclidean target (points (idx.get j))) i • points (idx.get i) := by
    rw [hres, blend_ofFn]
    rfl
  have hnn : ∀ i : Fin idx.length, 0 ≤ proportional false (fun j => distance .euclidean target (points (idx.get j))) i := fun i => (hpos _ (hmem i)).le
  have herr := blend_error (fun i : Fin idx.length => points (idx.get i)) target _ hsum hnn
  refine ⟨hs, ?_, ?_⟩
  · intro r hr
    rw [hb]
    refine herr.trans ?_
    refine (Finset.sum_le_sum (fun i _ => mul_le_mul_of_nonneg_left (hr _ (hmem i)) (hnn i))).trans ?_
    rw [← Finset.sum_mul, hsum, one_mul]
  · rintro ⟨e, he, hp⟩
    rw [hb]
    refine herr.trans ?_
    have hl : res.length = idx.length := by rw [hres, List.length_ofFn]
    rw [hres, List.mem_ofFn] at he
    obtain ⟨i, rfl⟩ := he
    simp only [] at hp
    -- the raw weight of the match
    have hbig : 1000000 ≤ ∑ j, rawWeight false (distance .euclidean target (points (idx.get j))) := by
      refine le_trans ?_ (Finset.single_le_sum (f := fun j => rawWeight false (distance .euclidean target (points (idx.get j)))) (fun j _ => (raw_pos _).le) (Finset.mem_univ i))
      simp only [rawWeight, Bool.false_eq_true, if_false, distance, hp, sub_self, norm_zero]
      norm_num
    have hterm : ∀ j : Fin idx.length, proportional false (fun j => distance .euclidean target (points (idx.get j))) j * ‖target - points (idx.get j)‖ ≤ 1 / 1000000 := by
      intro j
      unfold proportional
      rw [max_eq_left hraw]
      generalize ∑ j, rawWeight false (distance .euclidean target (points (idx.get j))) = S at hbig
      have hS : 0 < S := lt_of_lt_of_le (by norm_num) hbig
      simp only [rawWeight, Bool.false_eq_true, if_false, distance]
      generalize ‖target - points (idx.get j)‖ = d
      have hm : 0 < max d (1 / 1000000) := lt_of_lt_of_le (by norm_num) (le_max_right _ _)
      have : 1 / max d (1 / 1000000) / S * d = (d / max d (1 / 1000000)) / S := by ring
      rw [this, div_le_div_iff₀ hS (by norm_num)]
      have h1 : d / max d (1 / 1000000) ≤ 1 := (div_le_one hm).mpr (le_max_left _ _)
      linarith
    refine (Finset.sum_le_sum (fun j _ => hterm j)).trans ?_
    rw [Finset.sum_const, Finset.card_univ, Fintype.card_fin, hl, nsmul_eq_mul]
    exact le_of_eq (by ring)

/-- C82, refuted for neighbours that are all very far away: the weights do not sum to one. -/
theorem C82_far {o : Oracle} {dim count : Nat} {points : Nat → Vec dim} {target : Vec dim} {k : Option Int}
    {res : List (Nat × ℝ)} (h : interpolate o count points target k .euclidean .distanceProportional = .ok res)
    (hfar : ∀ e ∈ res, 1000000 * res.length < ‖target - points e.1‖) : (res.map Prod.snd).sum < 1 := by
  obtain ⟨idx, _, hres⟩ := interpolate_ok h
  have hl : res.length = idx.length := by rw [hres, List.length_ofFn]
  have hd : ∀ i : Fin idx.length, 1000000 * (idx.length : ℝ) < ‖target - points (idx.get i)‖ := by
    intro i
    have hm := hfar (idx.get i, weights o .distanceProportional (decide (Metric.euclidean = .cosine)) target (fun j => points (idx.get j))
      (fun j => distance .euclidean target (points (idx.get j))) i) (by rw [hres, List.mem_ofFn]; exact ⟨i, rfl⟩)
    rw [hl] at hm
    exact hm
  have hsmall : ∑ j, rawWeight false (distance .euclidean target (points (idx.get j))) < 1 / 1000000 := by
    by_cases h0 : idx.length = 0
    · have : IsEmpty (Fin idx.length) := by rw [h0]; infer_instance
      rw [Finset.univ_eq_empty, Finset.sum_empty]; norm_num
    · have hn : (0 : ℝ) < idx.length := by exact_mod_cast Nat.pos_of_ne_zero h0
      have hne : (univ : Finset (Fin idx.length)).Nonempty := ⟨⟨0, Nat.pos_of_ne_zero h0⟩, Finset.mem_univ _⟩
      have : ∑ j : Fin idx.length, rawWeight false (distance .euclidean target (points (idx.get j))) < ∑ _j : Fin idx.length, 1 / (1000000 * (idx.length : ℝ)) := by
        refine Finset.sum_lt_sum_of_nonempty hne (fun j _ => ?_)
        simp only [rawWeight, Bool.false_eq_true, if_false, distance]
        exact one_div_lt_one_div_of_lt (by positivity) (lt_of_lt_of_le (hd j) (le_max_left _ _))
      refine this.trans_le (le_of_eq ?_)
      rw [Finset.sum_const, Finset.card_univ, Fintype.card_fin, nsmul_eq_mul]
      field_simp
  rw [hres, weights_ofFn]
  have := prop_sum_small false (fun j => distance .euclidean target (points (idx.get j))) hsmall
  simp only [weights, reduceCtorEq, decide_false]
  rw [this]
  linarith

/-- C82 for weights by similarity, as long as the similarities sum to at least 1/1000000. -/
theorem C82_cosine_partial {o : Oracle} {dim count : Nat} {points : Nat → Vec dim} {target : Vec dim} {k : Option Int}
    {res : List (Nat × ℝ)} (h : interpolate o count points target k .cosine .distanceProportional = .ok res)
    (hs : 1 / 1000000 ≤ (res.map (fun e => cosineSim target (points e.1))).sum) :
    (res.map Prod.snd).sum = 1 ∧ ∀ e ∈ res, e.2 = cosineSim target (points e.1) / (res.map (fun e => cosineSim target (points e.1))).sum := by
  obtain ⟨idx, _, rfl⟩ := interpolate_ok h
  have hraw : (fun j : Fin idx.length => rawWeight true (distance .cosine target (points (idx.get j)))) = fun j => cosineSim target (points (idx.get j)) := by
    funext j; simp [rawWeight, distance]
  have hsum : ((List.ofFn (fun i : Fin idx.length => (idx.get i, weights o .distanceProportional (decide (Metric.cosine = .cosine)) target (fun j => points (idx.get j))
      (fun j => distance .cosine target (points (idx.get j))) i))).map (fun e => cosineSim target (points e.1))).sum = ∑ j, rawWeight true (distance .cosine target (points (idx.get j))) := by
    rw [hraw, List.map_ofFn, List.sum_ofFn]
    rfl
  rw [hsum] at hs ⊢
  constructor
  · rw [weights_ofFn]
    simp only [weights, decide_true]
    exact prop_sum true _ hs
  · intro e he
    rw [List.mem_ofFn] at he
    obtain ⟨i, rfl⟩ := he
    simp only [weights, decide_true, proportional]
    rw [max_eq_left hs, ← congrFun hraw i]

/-- C82, refuted for weights by similarity: with a point and its opposite both weights are a million times too large, and so is the new vector. -/
theorem C82_cosine_blows_up {o : Oracle} {dim : Nat} {points : Nat → Vec dim} {target : Vec dim} (h0 : points 0 = target) (h1 : points 1 = -target) (hn : 1 ≤ ‖target‖) :
    ∃ res, interpolate o 2 points target none .cosine .distanceProportional = .ok res ∧ res = [(0, 1000000), (1, -1000000)] ∧ blend points res = (2000000 : ℝ) • target := by
  have hsq : 1 ≤ ‖target‖ * ‖target‖ := by nlinarith
  have s0 : cosineSim target (points 0) = 1 := by
    unfold cosineSim
    rw [h0, max_eq_left (by linarith), real_inner_self_eq_norm_mul_norm, div_self (by linarith)]
  have s1 : cosineSim target (points 1) = -1 := by
    unfold cosineSim
    rw [h1, norm_neg, max_eq_left (by linarith), inner_neg_right, real_inner_self_eq_norm_mul_norm, neg_div, div_self (by linarith)]
  have hok : interpolate o 2 points target none .cosine .distanceProportional =
      .ok [(0, proportional true (fun j : Fin 2 => distance .cosine target (points ([0, 1].get j))) 0),
        (1, proportional true (fun j : Fin 2 => distance .cosine target (points ([0, 1].get j))) 1)] := rfl
  have w0 : proportional true (fun j : Fin 2 => distance .cosine target (points ([0, 1].get j))) 0 = 1000000 := by
    simp only [proportional, rawWeight, if_true, Fin.sum_univ_two, distance, List.get_eq_getElem, Fin.val_zero, Fin.val_one, List.getElem_cons_zero, List.getElem_cons_succ, s0, s1]
    norm_num
  have w1 : proportional true (fun j : Fin 2 => distance .cosine target (points ([0, 1].get j))) 1 = -1000000 := by
    simp only [proportional, rawWeight, if_true, Fin.sum_univ_two, distance, List.get_eq_getElem, Fin.val_zero, Fin.val_one, List.getElem_cons_zero, List.getElem_cons_succ, s0, s1]
    norm_num
  rw [w0, w1] at hok
  refine ⟨_, hok, rfl, ?_⟩
  simp only [blend, List.map_cons, List.map_nil, List.sum_cons, List.sum_nil, h0, h1, smul_neg, add_zero, neg_smul, neg_neg, ← add_smul]
  norm_num

/-- Barycentric weights sum to one, and no other weights of the same neighbours with sum one come closer to the target. -/
theorem C82_barycentric {o : Oracle} (ho : IsLstsq o.lstsq) {dim count : Nat} {points : Nat → Vec dim} {target : Vec dim} {k : Option Int} {metric : Metric}
    {res : List (Nat × ℝ)} (h : interpolate o count points target k metric .barycentric = .ok res) (hne : res ≠ []) :
    (res.map Prod.snd).sum = 1 ∧ ∀ other : List (Nat × ℝ), other.map Prod.fst = res.map Prod.fst → (other.map Prod.snd).sum = 1 →
      ‖target - blend points res‖ ≤ ‖target - blend points other‖ := by
  obtain ⟨idx, _, rfl⟩ := interpolate_ok h
  have hpos : 0 < idx.length := by
    rcases Nat.eq_zero_or_pos idx.length with h0 | h0
    · exfalso; apply hne; rw [← List.length_eq_zero_iff, List.length_ofFn]; exact h0
    · exact h0
  obtain ⟨h1, l, h2⟩ := barycentric_spec ho hpos target (fun j => points (idx.get j))
  refine ⟨by rw [weights_ofFn]; exact h1, ?_⟩
  intro other hfst hsum
  rw [fst_ofFn] at hfst
  obtain ⟨w, rfl⟩ := as_ofFn hfst
  rw [weights_ofFn] at hsum
  rw [blend_ofFn, blend_ofFn]
  refine orth_least (fun i : Fin idx.length => points (idx.get i)) target (barycentric o target (fun j => points (idx.get j))) w ?_
  rw [inner_sum]
  have : ∀ i : Fin idx.length, inner ℝ (target - ∑ i : Fin idx.length, barycentric o target (fun j => points (idx.get j)) i • points (idx.get i))
      ((barycentric o target (fun j => points (idx.get j)) i - w i) • points (idx.get i)) = (barycentric o target (fun j => points (idx.get j)) i - w i) * l := by
    intro i
    rw [inner_smul_right, h2 i]
  rw [Finset.sum_congr rfl (fun i _ => this i), ← Finset.sum_mul, Finset.sum_sub_distrib, h1, hsum]
  ring

/-- No weights of the same neighbours at all come closer than those by least squares. -/
theorem C82_least_squares {o : Oracle} (ho : IsLstsq o.lstsq) {dim count : Nat} {points : Nat → Vec dim} {target : Vec dim} {k : Option Int} {metric : Metric}
    {res : List (Nat × ℝ)} (h : interpolate o count points target k metric .leastSquares = .ok res) :
    ∀ other : List (Nat × ℝ), other.map Prod.fst = res.map Prod.fst → ‖target - blend points res‖ ≤ ‖target - blend points other‖ := by
  obtain ⟨idx, _, rfl⟩ := interpolate_ok h
  intro other hfst
  rw [fst_ofFn] at hfst
  obtain ⟨w, rfl⟩ := as_ofFn hfst
  rw [blend_ofFn, blend_ofFn]
  refine (sq_le_sq₀ (norm_nonneg _) (norm_nonneg _)).mp ?_
  rw [norm_sq_sub, norm_sq_sub]
  have := ho (fun (a : Fin dim) (j : Fin idx.length) => points (idx.get j) a) (fun a => target a) w
  simp only [combo_coord]
  exact this

/-- A target on the line, plane, ... through its neighbours is met exactly by barycentric weights, and they carry over to the other model: under any affine map of the points the
new vector is the image of the target. -/
theorem C82_affine {o : Oracle} (ho : IsLstsq o.lstsq) {dim count : Nat} {points : Nat → Vec dim} {target : Vec dim} {k : Option Int} {metric : Metric}
    {res : List (Nat × ℝ)} (h : interpolate o count points target k metric .barycentric = .ok res) (hne : res ≠ [])
    (hspan : ∃ other : List (Nat × ℝ), other.map Prod.fst = res.map Prod.fst ∧ (other.map Prod.snd).sum = 1 ∧ blend points other = target) :
    blend points res = target ∧ ∀ {dim' : Nat} (f : Vec dim →ₗ[ℝ] Vec dim') (shift : Vec dim') (other : Nat → Vec dim'),
      (∀ e ∈ res, other e.1 = f (points e.1) + shift) → blend other res = f target + shift := by
  obtain ⟨hs, hbest⟩ := C82_barycentric ho h hne
  obtain ⟨other, a, b, c⟩ := hspan
  have h1 : blend points res = target := by
    have := hbest other a b
    rw [c, sub_self, norm_zero, norm_le_zero_iff, sub_eq_zero] at this
    exact this.symm
  refine ⟨h1, ?_⟩
  intro dim' f shift q hq
  have key : ∀ l : List (Nat × ℝ), (∀ e ∈ l, q e.1 = f (points e.1) + shift) → blend q l = f (blend points l) + (l.map Prod.snd).sum • shift := by
    intro l
    induction l with
    | nil => intro _; simp [blend]
    | cons e l ih =>
      intro hl
      have := ih (fun e' he' => hl e' (List.mem_cons_of_mem _ he'))
      unfold blend at this ⊢
      simp only [List.map_cons, List.sum_cons, map_add, map_smul, add_smul]
      rw [this, hl e (List.mem_cons_self)]
      rw [smul_add]
      abel
  rw [key res hq, h1, hs, one_smul]

/-! ## Instances -/

/-- There are such library functions. -/
theorem oracle_exists : ∃ o : Oracle, IsTopk o.topk ∧ IsLstsq o.lstsq := by
  classical
  have hk : ∀ (n k : Nat) (d : Nat → ℝ), k ≤ n → ∃ l : List Nat, l.length = k ∧ l.Nodup ∧ (∀ i ∈ l, i < n) ∧ ∀ i ∈ l, ∀ j < n, j ∉ l → d i ≤ d j := by
    intro n k d
    induction k with
    | zero => intro _; exact ⟨[], by simp⟩
    | succ k ih =>
      intro hkn
      obtain ⟨l, h1, h2, h3, h4⟩ := ih (by omega)
      have hne : ((range n).filter (fun j => j ∉ l)).Nonempty := by
        by_contra he
        rw [Finset.not_nonempty_iff_eq_empty, Finset.filter_eq_empty_iff] at he
        have hsub : range n ⊆ l.toFinset := fun j hj => by
          have := he hj
          rw [not_not] at this
          exact List.mem_toFinset.mpr this
        have := Finset.card_le_card hsub
        rw [Finset.card_range] at this
        have := List.toFinset_card_le l
        omega
      obtain ⟨m, hm, hmin⟩ := Finset.exists_min_image _ d hne
      rw [Finset.mem_filter, Finset.mem_range] at hm
      refine ⟨m :: l, by simp [h1], List.nodup_cons.mpr ⟨hm.2, h2⟩, ?_, ?_⟩
      · intro i hi
        rcases List.mem_cons.mp hi with rfl | hi
        · exact hm.1
        · exact h3 i hi
      · intro i hi j hj hn
        rw [List.mem_cons, not_or] at hn
        rcases List.mem_cons.mp hi with rfl | hi
        · exact hmin j (Finset.mem_filter.mpr ⟨Finset.mem_range.mpr hj, hn.2⟩)
        · exact h4 i hi j hj hn.2
  refine ⟨⟨fun n k d => if h : k ≤ n then (hk n k d h).choose else [], fun a b => (lsq_exists a b).choose⟩, ?_, ?_⟩
  · intro n k d h
    simp only [h, dif_pos]
    exact (hk n k d h).choose_spec
  · intro m n a b x
    exact (lsq_exists a b).choose_spec x

/-- Three points on a line. -/
noncomputable def onLine (i : Nat) : Vec 1 := EuclideanSpace.single 0 (i : ℝ)

/-- The hypotheses of the theorems above can be met. -/
example : ∃ (o : Oracle) (r1 r2 r3 : List (Nat × ℝ)), IsTopk o.topk ∧ IsLstsq o.lstsq ∧
    interpolate o 3 onLine (onLine 1) none .euclidean .distanceProportional = .ok r1 ∧ (∃ e ∈ r1, onLine e.1 = onLine 1) ∧
    interpolate o 3 onLine (onLine 1) (some 2) .euclidean .barycentric = .ok r2 ∧ r2 ≠ [] ∧
    interpolate o 3 onLine (onLine 1) (some 2) .cosine .leastSquares = .ok r3 := by
  obtain ⟨o, h1, h2⟩ := oracle_exists
  obtain ⟨⟨r1, e1, f1⟩, _⟩ := C82_neighbours h1 (count := 3) (points := onLine) (target := onLine 1) (metric := .euclidean) (scheme := .distanceProportional)
  obtain ⟨_, g2⟩ := C82_neighbours h1 (count := 3) (points := onLine) (target := onLine 1) (metric := .euclidean) (scheme := .barycentric)
  obtain ⟨_, g3⟩ := C82_neighbours h1 (count := 3) (points := onLine) (target := onLine 1) (metric := .cosine) (scheme := .leastSquares)
  obtain ⟨r2, e2⟩ := (g2 2).1.mpr (by norm_num)
  obtain ⟨r3, e3⟩ := (g3 2).1.mpr (by norm_num)
  refine ⟨o, r1, r2, r3, h1, h2, e1, ?_, e2, ?_, e3⟩
  · have : (1 : Nat) ∈ r1.map Prod.fst := by rw [f1]; simp
    obtain ⟨e, he, h⟩ := List.mem_map.mp this
    exact ⟨e, he, by rw [h]⟩
  · have := ((g2 2).2 r2 e2).1
    intro h
    rw [h] at this
    simp at this

end Verif.Landmarks

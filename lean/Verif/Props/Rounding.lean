import Verif.Model.Rounding
import Verif.Props.Linear
import Mathlib.Tactic.Linarith
import Mathlib.Tactic.FieldSimp
import Mathlib.Tactic.Ring
import Mathlib.Tactic.Positivity
import Mathlib.Algebra.Order.BigOperators.Group.List
import Mathlib.Data.Int.Log
import Mathlib.Data.Rat.Floor
import Mathlib.Data.Set.Finite.Lemmas
import Mathlib.Algebra.Order.Field.Power
import Mathlib.Order.Interval.Finset.Defs
import Mathlib.Data.Int.Interval

/-! # C123: merges in floating point -/

set_option linter.unusedSectionVars false

namespace Verif.Rounding

open Verif.Tensor Verif.Merge

section
variable {K : Type} [Field K] [LinearOrder K] [IsStrictOrderedRing K]

/-- A floating point format: the numbers `F` that it has, its relative precision `u` and the largest error `η` of underflow.  Sums of two of its
numbers have no underflow. -/
structure Format (F : Set K) (u η : K) : Prop where
  zero : (0 : K) ∈ F
  one : (1 : K) ∈ F
  neg : ∀ x ∈ F, -x ∈ F
  u_nonneg : 0 ≤ u
  u_lt : u < 1
  eta_nonneg : 0 ≤ η
  dense : ∀ x, ∃ f ∈ F, |f - x| ≤ u * |x| + η
  dense_add : ∀ x ∈ F, ∀ y ∈ F, ∃ f ∈ F, |f - (x + y)| ≤ u * |x + y|

/-- Rounding to a nearest number of the format, with ties in any way. -/
def Nearest (F : Set K) (rnd : K → K) : Prop := ∀ x, rnd x ∈ F ∧ ∀ f ∈ F, |rnd x - x| ≤ |f - x|

/-- A sum over several models, in any order and with any precision in between: of `n` numbers it has the relative error `ε n`, the larger the
numbers the larger it is, and a single number is its own sum. -/
structure Adds (F : Set K) (sum : List K → K) (ε : Nat → K) : Prop where
  single : ∀ x ∈ F, sum [x] = x
  mono : ∀ l l', List.Forall₂ (· ≤ ·) l l' → sum l ≤ sum l'
  accurate : ∀ l, (∀ x ∈ l, x ∈ F) → |sum l - l.sum| ≤ ε l.length * (l.map (fun x => |x|)).sum

variable {F : Set K} {u η : K} {rnd : K → K}

theorem Nearest.fixed (h : Nearest F rnd) {x : K} (hx : x ∈ F) : rnd x = x := by
  have := (h x).2 x hx
  rw [sub_self, abs_zero] at this
  exact sub_eq_zero.1 (abs_nonpos_iff.1 this)

theorem Nearest.mono (h : Nearest F rnd) {x y : K} (hxy : x ≤ y) : rnd x ≤ rnd y := by
  by_contra hlt
  rw [not_le] at hlt
  rcases eq_or_lt_of_le hxy with rfl | hxy
  · exact lt_irrefl _ hlt
  have h1 := (h x).2 (rnd y) (h y).1
  have h2 := (h y).2 (rnd x) (h x).1
  have e1 : 2 * x ≥ rnd x + rnd y := by
    by_contra hc
    rw [ge_iff_le, not_le] at hc
    rcases le_or_gt x (rnd y) with hx | hx
    · rw [abs_of_nonneg (by linarith), abs_of_nonneg (by linarith)] at h1
      linarith
    · rw [abs_of_nonneg (by linarith), abs_of_neg (by linarith)] at h1
      linarith
  have e2 : 2 * y ≤ rnd x + rnd y := by
    by_contra hc
    rw [not_le] at hc
    rcases le_or_gt y (rnd x) with hx | hx
    · rw [abs_of_neg (by linarith), abs_of_nonneg (by linarith)] at h2
      linarith
    · rw [abs_of_neg (by linarith), abs_of_neg (by linarith)] at h2
      linarith
  linarith

theorem Nearest.near (h : Nearest F rnd) (hF : Format F u η) (x : K) : |rnd x - x| ≤ u * |x| + η := by
  obtain ⟨f, hf, hd⟩ := hF.dense x
  exact ((h x).2 f hf).trans hd

theorem Nearest.near_add (h : Nearest F rnd) (hF : Format F u η) {x y : K} (hx : x ∈ F) (hy : y ∈ F) : |rnd (x + y) - (x + y)| ≤ u * |x + y| := by
  obtain ⟨f, hf, hd⟩ := hF.dense_add x hx y hy
  exact ((h _).2 f hf).trans hd

theorem Nearest.near_sub (h : Nearest F rnd) (hF : Format F u η) {x y : K} (hx : x ∈ F) (hy : y ∈ F) : |rnd (x - y) - (x - y)| ≤ u * |x - y| := by
  rw [sub_eq_add_neg x y]
  exact h.near_add hF hx (hF.neg y hy)

/-! ## One number after the other -/

/-- Adding one number after the other with a rounding after each step. -/
def seqSum (rnd : K → K) : List K → K
  | [] => 0
  | x :: xs => xs.foldl (fun a y => rnd (a + y)) x

theorem foldl_near (h : Nearest F rnd) (hF : Format F u η) (xs : List K) : ∀ a ∈ F, (∀ x ∈ xs, x ∈ F) →
    |xs.foldl (fun a y => rnd (a + y)) a - (a + xs.sum)| ≤ ((1 + u) ^ xs.length - 1) * (|a| + (xs.map (fun x => |x|)).sum) := by
  induction xs with
  | nil => intro a _ _; simp
  | cons y xs ih =>
    intro a ha hxs
    have hy := hxs y (List.mem_cons_self ..)
    have h1 := ih (rnd (a + y)) (h _).1 (fun x hx => hxs x (List.mem_cons_of_mem _ hx))
    have h2 := h.near_add hF ha hy
    have hu := hF.u_nonneg
    simp only [List.foldl_cons, List.sum_cons, List.map_cons, List.length_cons]
    set c := (1 + u) ^ xs.length with hc
    have hc1 : 1 ≤ c := one_le_pow₀ (by linarith)
    set S := (xs.map (fun x => |x|)).sum
    have hS : 0 ≤ S := List.sum_nonneg (by simp)
    have h3 : |a + y| ≤ |a| + |y| := abs_add_le a y
    have h4 : |rnd (a + y)| ≤ (1 + u) * (|a| + |y|) := by
      have : |rnd (a + y)| ≤ |rnd (a + y) - (a + y)| + |a + y| := by
        have := abs_add_le (rnd (a + y) - (a + y)) (a + y)
        simpa using this
      nlinarith
    have h5 : |xs.foldl (fun a y => rnd (a + y)) (rnd (a + y)) - (a + (y + xs.sum))| ≤
        |xs.foldl (fun a y => rnd (a + y)) (rnd (a + y)) - (rnd (a + y) + xs.sum)| + |rnd (a + y) - (a + y)| := by
      have := abs_add_le (xs.foldl (fun a y => rnd (a + y)) (rnd (a + y)) - (rnd (a + y) + xs.sum)) (rnd (a + y) - (a + y))
      refine le_trans (le_of_eq ?_) this
      congr 1
      ring
    refine h5.trans ?_
    rw [pow_succ, ← hc]
    have h6 : (c - 1) * (|rnd (a + y)| + S) ≤ (c - 1) * ((1 + u) * (|a| + |y|) + S) :=
      mul_le_mul_of_nonneg_left (by linarith) (by linarith)
    have h7 : u * |a + y| ≤ u * (|a| + |y|) := mul_le_mul_of_nonneg_left h3 hu
    have h8 : 0 ≤ c * u * S := by positivity
    nlinarith

theorem foldl_mono (h : Nearest F rnd) {xs ys : List K} (hl : List.Forall₂ (· ≤ ·) xs ys) : ∀ a b, a ≤ b →
    xs.foldl (fun a y => rnd (a + y)) a ≤ ys.foldl (fun a y => rnd (a + y)) b := by
  induction hl with
  | nil => intro a b hab; exact hab
  | cons hxy _ ih => intro a b hab; exact ih _ _ (h.mono (add_le_add hab hxy))

/-- Adding one number after the other is such a sum. -/
theorem seqSum_adds (h : Nearest F rnd) (hF : Format F u η) : Adds F (seqSum rnd) (fun n => (1 + u) ^ (n - 1) - 1) where
  single := fun x _ => rfl
  mono := by
    intro l l' hl
    cases hl with
    | nil => exact le_refl _
    | cons hxy hl => exact foldl_mono h hl _ _ hxy
  accurate := by
    intro l hl
    cases l with
    | nil => simp [seqSum]
    | cons x xs =>
      have := foldl_near h hF xs x (hl x (List.mem_cons_self ..)) (fun y hy => hl y (List.mem_cons_of_mem _ hy))
      simpa [seqSum] using this

/-! ## Without rounding -/

/-- Exact arithmetic. -/
def exactArith (K : Type) [Field K] : Arith K := ⟨fun x => x, List.sum⟩

theorem mix_exact (consensus : Option Consensus) (normalize : Bool) (lam : K) (es : List (K × K)) :
    flMix (exactArith K) consensus normalize lam es = mix consensus normalize lam es := by
  have hm : ∀ method (ds : List K), flMask (exactArith K) method ds = mask method ds := by
    intro method ds
    unfold flMask mask
    cases method <;> rfl
  have hz : ∀ (l : List (K × K)) (mk : List Bool), (((l.map Prod.fst).zip mk).map (fun e => e.1 * ofBool e.2)) = (l.zip mk).map (fun e => e.1.1 * ofBool e.2) := by
    intro l
    induction l with
    | nil => intro mk; simp
    | cons a l ih =>
      intro mk
      cases mk with
      | nil => simp
      | cons b mk => simp [ih]
  unfold flMix mix
  cases consensus with
  | none => rfl
  | some method =>
    have h := hz es (mask method (es.map (fun e => e.2 * e.1)))
    simp only [hm, ← h]
    rfl

theorem taskVectors_exact {M : Type} [DecidableEq M] (isEmbed : Bool) (b : M) (base : Tensor K) (ts : List (M × Tensor K)) :
    flTaskVectors (exactArith K) isEmbed b base ts = taskVectors isEmbed b base ts := by
  induction ts with
  | nil => rfl
  | cons e ts ih =>
    obtain ⟨m, x⟩ := e
    unfold flTaskVectors taskVectors
    rw [ih]
    rfl

/-- **C123** Without rounding the methods are those of exact arithmetic. -/
theorem C123_exact {M : Type} [DecidableEq M] (isEmbed normalize : Bool) (weight : M → K) (tensors : List (M × Tensor K))
    (consensus : Option Consensus) (lam : K) (sp : M → Tensor K → Except Err (Tensor K)) (b : M) :
    flLinear (exactArith K) isEmbed normalize weight tensors = linear isEmbed normalize weight tensors ∧
    flGta (exactArith K) consensus isEmbed normalize lam weight sp b tensors = gta consensus isEmbed normalize lam weight sp b tensors := by
  constructor
  · rfl
  · unfold flGta gta
    cases lookup tensors b with
    | none => rfl
    | some base =>
      simp only [taskVectors_exact, mix_exact]
      rfl

/-! ## Conversions -/

/-- **C123** A tensor whose numbers exist in the type of the output and in the type of the merge comes out of a passthrough merge bit for bit. -/
theorem C123_casts {M : Type} {Fm Fo : Set K} {rm ro : K → K} (hm : Nearest Fm rm) (ho : Nearest Fo ro) (A : Arith K) (m : M) (t : Tensor K)
    (mergeType outType : Option (K → K)) (h1 : mergeType = none ∨ mergeType = some rm ∧ ∀ i, t.get i ∈ Fm)
    (h2 : outType = none ∨ outType = some ro ∧ ∀ i, t.get i ∈ Fo) :
    flThrough mergeType outType (fun x => flPassthrough A (fun _ => none) [(m, x)]) t = .ok t := by
  have e : ∀ {F : Set K} {r : K → K}, Nearest F r → (∀ i, t.get i ∈ F) → flCast r t = t := by
    intro F r hr hF
    unfold flCast
    have : (fun i => r (t.get i)) = t.get := funext (fun i => hr.fixed (hF i))
    rw [this]
  unfold flThrough flPassthrough
  rcases h1 with rfl | ⟨rfl, h1⟩ <;> rcases h2 with rfl | ⟨rfl, h2⟩
  · rfl
  · simp only [e ho h2]
  · simp only [e hm h1]
  · simp only [e hm h1, e ho h2]

/-- The tensor has numbers of the format, each nearest to the number that was there. -/
def Converted (F : Set K) (t r : Tensor K) : Prop := r.shape = t.shape ∧ ∀ i, r.get i ∈ F ∧ ∀ f ∈ F, |r.get i - t.get i| ≤ |f - t.get i|

/-- **C123** Whatever the method does, it is given a tensor of the type of the merge, and what is written is of the type of the output; each number is
the nearest there is to the one before. -/
theorem C123_types {Fm Fo : Set K} {rm ro : K → K} (hm : Nearest Fm rm) (ho : Nearest Fo ro) (method : Tensor K → Except Err (Tensor K)) (t r : Tensor K)
    (h : flThrough (some rm) (some ro) method t = .ok r) : ∃ x y, Converted Fm t x ∧ method x = .ok y ∧ Converted Fo y r := by
  unfold flThrough at h
  simp only at h
  split at h
  · cases h
  · rename_i y hy
    cases h
    exact ⟨flCast rm t, y, ⟨rfl, fun i => hm (t.get i)⟩, hy, rfl, fun i => ho (y.get i)⟩

example : flThrough (K := ℚ) (some (fun x => ⌊x⌋)) (some (fun x => 2 * ⌊x / 2⌋)) (fun x => .ok ⟨x.shape, fun i => x.get i + 1⟩) ⟨[1], fun _ => 5 / 2⟩ =
    .ok ⟨[1], fun _ => 2⟩ := by
  simp only [flThrough, flCast]
  norm_num

/-! ## Linear merges -/

theorem flLinear_eq {M : Type} (A : Arith K) (isEmbed : Bool) (weight : M → K) (tensors : List (M × Tensor K)) (shape : List Nat)
    (hne : tensors ≠ []) (hsh : ∀ e ∈ tensors, e.2.shape = shape) :
    (A.sum (tensors.map (fun e => A.rnd (weight e.1))) ≠ 0 →
      flLinear A isEmbed true weight tensors = .ok ⟨shape, fun i => A.rnd (A.sum (tensors.map (fun e => A.rnd (A.rnd (weight e.1) * e.2.get i))) /
        A.sum (tensors.map (fun e => A.rnd (weight e.1))))⟩) ∧
    flLinear A isEmbed false weight tensors = .ok ⟨shape, fun i => A.sum (tensors.map (fun e => A.rnd (A.rnd (weight e.1) * e.2.get i)))⟩ := by
  have hr : rectify isEmbed (tensors.map Prod.snd) = tensors.map Prod.snd :=
    rectify_oneShape isEmbed _ shape (by intro t ht; obtain ⟨e, he, rfl⟩ := List.mem_map.1 ht; exact hsh e he)
  have hz : ∀ i, flWsum A ((tensors.map (fun e => A.rnd (weight e.1))).zip (tensors.map Prod.snd)) i =
      A.sum (tensors.map (fun e => A.rnd (A.rnd (weight e.1) * e.2.get i))) := by
    intro i
    unfold flWsum
    rw [List.zip_map', List.map_map]
    rfl
  obtain ⟨e, es, rfl⟩ := List.exists_cons_of_ne_nil hne
  have hall : (es.map Prod.snd).all (fun x => x.shape = e.2.shape) = true := by
    simp only [List.all_map, List.all_eq_true, Function.comp, decide_eq_true_eq]
    intro x hx
    rw [hsh x (List.mem_cons_of_mem _ hx), hsh e (List.mem_cons_self ..)]
  have hs := hsh e (List.mem_cons_self ..)
  constructor
  · intro h0
    unfold flLinear
    simp only [hr]
    simp only [List.map_cons] at hz h0 ⊢
    rw [if_pos hall, if_pos trivial, if_neg h0]
    simp only [hz, hs]
  · unfold flLinear
    simp only [hr]
    simp only [List.map_cons] at hz ⊢
    rw [if_pos hall]
    simp only [hz, hs]
    rfl

/-- Specification: the weighted mean. -/
def mean (l : List (K × K)) : K := (l.map (fun e => e.1 * e.2)).sum / (l.map Prod.fst).sum

/-- The mean magnitude. -/
def meanAbs (l : List (K × K)) : K := (l.map (fun e => e.1 * |e.2|)).sum / (l.map Prod.fst).sum

theorem sum_abs_sub (l : List (K × K)) (f g : K × K → K) (b : K × K → K) (h : ∀ e ∈ l, |f e - g e| ≤ b e) :
    |(l.map f).sum - (l.map g).sum| ≤ (l.map b).sum := by
  induction l with
  | nil => simp
  | cons e l ih =>
    simp only [List.map_cons, List.sum_cons]
    have h1 := h e (List.mem_cons_self ..)
    have h2 := ih (fun x hx => h x (List.mem_cons_of_mem _ hx))
    have h3 := abs_add_le (f e - g e) ((l.map f).sum - (l.map g).sum)
    have : f e + (l.map f).sum - (g e + (l.map g).sum) = (f e - g e) + ((l.map f).sum - (l.map g).sum) := by ring
    rw [this]
    linarith

theorem sum_map_affine (l : List (K × K)) (f : K × K → K) (a b : K) : (l.map (fun e => a * f e + b)).sum = a * (l.map f).sum + l.length * b := by
  induction l with
  | nil => simp
  | cons e l ih =>
    simp only [List.map_cons, List.sum_cons, ih, List.length_cons]
    push_cast
    ring

theorem sum_shift (l : List (K × K)) (f : K × K → K) (μ : K) :
    (l.map (fun e => f e * (e.2 - μ))).sum = (l.map (fun e => f e * e.2)).sum - μ * (l.map f).sum := by
  induction l with
  | nil => simp
  | cons e l ih => simp only [List.map_cons, List.sum_cons, ih]; ring

theorem Adds.zeros (hF : Format F u η) {sum : List K → K} {ε : Nat → K} (hS : Adds F sum ε) (l : List K) (h : ∀ x ∈ l, x = 0) : sum l = 0 := by
  have h1 := hS.accurate l (fun x hx => by rw [h x hx]; exact hF.zero)
  have h2 : l = List.replicate l.length 0 := List.eq_replicate_iff.2 ⟨rfl, h⟩
  have h3 : l.sum = 0 := by rw [h2]; simp
  have h4 : (l.map (fun x => |x|)).sum = 0 := by rw [h2]; simp
  rw [h3, h4, sub_zero, mul_zero] at h1
  exact abs_nonpos_iff.1 h1

theorem entry_bound (hN : Nearest F rnd) (hF : Format F u η) {sum : List K → K} {ε : Nat → K} (hS : Adds F sum ε) (l : List (K × K))
    (hw : ∀ e ∈ l, e.1 ∈ F ∧ 0 ≤ e.1) (hW : 0 < (l.map Prod.fst).sum) (hε0 : 0 ≤ ε l.length) (hε : ε l.length < 1) :
    0 < sum (l.map Prod.fst) ∧
    |rnd (sum (l.map (fun e => rnd (e.1 * e.2))) / sum (l.map Prod.fst)) - mean l| ≤
      (1 + u) * (((u + 2 * ε l.length + ε l.length * u) * meanAbs l + l.length * (1 + ε l.length) * η / (l.map Prod.fst).sum) / (1 - ε l.length)) +
        u * meanAbs l + η := by
  set n := l.length
  set W := (l.map Prod.fst).sum with hWdef
  set X := (l.map (fun e => e.1 * |e.2|)).sum with hX
  set E := ε n with hE
  have hu := hF.u_nonneg
  have hη := hF.eta_nonneg
  -- the divisor
  have hV := hS.accurate (l.map Prod.fst) (by intro x hx; obtain ⟨e, he, rfl⟩ := List.mem_map.1 hx; exact (hw e he).1)
  have habs : ((l.map Prod.fst).map (fun x => |x|)).sum = W := by
    rw [List.map_map, hWdef]
    congr 1
    exact List.map_congr_left (fun e he => abs_of_nonneg (hw e he).2)
  rw [habs, List.length_map] at hV
  set V := sum (l.map Prod.fst) with hVdef
  have hV1 : (1 - E) * W ≤ V := by
    have := (abs_le.1 hV).1
    linarith
  have h1E : 0 < 1 - E := by linarith
  have hVpos : 0 < V := lt_of_lt_of_le (mul_pos h1E hW) hV1
  refine ⟨hVpos, ?_⟩
  -- the products
  have hprod : ∀ e ∈ l, |rnd (e.1 * e.2) - e.1 * e.2| ≤ u * (e.1 * |e.2|) + η := by
    intro e he
    have := hN.near hF (e.1 * e.2)
    rwa [abs_mul, abs_of_nonneg (hw e he).2] at this
  have hS1 := sum_abs_sub l (fun e => rnd (e.1 * e.2)) (fun e => e.1 * e.2) (fun e => u * (e.1 * |e.2|) + η) hprod
  rw [sum_map_affine l (fun e => e.1 * |e.2|) u η] at hS1
  have hS2 := hS.accurate (l.map (fun e => rnd (e.1 * e.2))) (by intro x hx; obtain ⟨e, _, rfl⟩ := List.mem_map.1 hx; exact (hN _).1)
  rw [List.length_map] at hS2
  have hS3 : ((l.map (fun e => rnd (e.1 * e.2))).map (fun x => |x|)).sum ≤ (1 + u) * X + n * η := by
    have : ((l.map (fun e => rnd (e.1 * e.2))).map (fun x => |x|)).sum ≤ (l.map (fun e => (1 + u) * (e.1 * |e.2|) + η)).sum := by
      rw [List.map_map]
      apply List.sum_le_sum
      intro e he
      simp only [Function.comp]
      have h1 := hprod e he
      have h2 : |rnd (e.1 * e.2)| ≤ |rnd (e.1 * e.2) - e.1 * e.2| + |e.1 * e.2| := by
        have := abs_add_le (rnd (e.1 * e.2) - e.1 * e.2) (e.1 * e.2)
        simpa using this
      have h3 : |e.1 * e.2| = e.1 * |e.2| := by rw [abs_mul, abs_of_nonneg (hw e he).2]
      linarith
    rwa [sum_map_affine l (fun e => e.1 * |e.2|) (1 + u) η] at this
  set S := sum (l.map (fun e => rnd (e.1 * e.2)))
  set Y := (l.map (fun e => e.1 * e.2)).sum with hY
  have hXnn : 0 ≤ X := List.sum_nonneg (by
    intro x hx
    obtain ⟨e, he, rfl⟩ := List.mem_map.1 hx
    exact mul_nonneg (hw e he).2 (abs_nonneg _))
  have hSY : |S - Y| ≤ (u + E * (1 + u)) * X + n * (1 + E) * η := by
    have h1 := abs_add_le (S - (l.map (fun e => rnd (e.1 * e.2))).sum) ((l.map (fun e => rnd (e.1 * e.2))).sum - Y)
    have h2 : S - Y = (S - (l.map (fun e => rnd (e.1 * e.2))).sum) + ((l.map (fun e => rnd (e.1 * e.2))).sum - Y) := by ring
    rw [← h2] at h1
    have h3 : E * ((l.map (fun e => rnd (e.1 * e.2))).map (fun x => |x|)).sum ≤ E * ((1 + u) * X + n * η) := mul_le_mul_of_nonneg_left hS3 hε0
    have h4 : (n : K) * (1 + E) * η = n * η + E * (n * η) := by ring
    rw [h4]
    nlinarith [hS2, hS1]
  have hYX : |Y| ≤ X := by
    have := sum_abs_sub l (fun e => e.1 * e.2) (fun _ => 0) (fun e => e.1 * |e.2|) (by
      intro e he
      simp only [sub_zero]
      rw [abs_mul, abs_of_nonneg (hw e he).2])
    simpa using this
  have hM : meanAbs l = X / W := rfl
  have hmean : mean l = Y / W := rfl
  set D := ((u + 2 * E + E * u) * meanAbs l + n * (1 + E) * η / W) / (1 - E) with hD
  have hQ : |S / V - mean l| ≤ D := by
    rw [hmean]
    have h1 : S / V - Y / W = ((S - Y) * W + Y * (W - V)) / (V * W) := by
      field_simp
      ring
    rw [h1, abs_div, abs_of_pos (mul_pos hVpos hW)]
    have h2 : |(S - Y) * W + Y * (W - V)| ≤ ((u + E * (1 + u)) * X + n * (1 + E) * η) * W + X * (E * W) := by
      refine (abs_add_le _ _).trans ?_
      rw [abs_mul, abs_mul, abs_of_pos hW, abs_sub_comm W V]
      exact add_le_add (mul_le_mul_of_nonneg_right hSY hW.le) (mul_le_mul hYX hV (abs_nonneg _) hXnn)
    have hnum : 0 ≤ ((u + E * (1 + u)) * X + n * (1 + E) * η) * W + X * (E * W) := le_trans (abs_nonneg _) h2
    calc |(S - Y) * W + Y * (W - V)| / (V * W) ≤ (((u + E * (1 + u)) * X + n * (1 + E) * η) * W + X * (E * W)) / (V * W) :=
          div_le_div_of_nonneg_right h2 (mul_pos hVpos hW).le
      _ ≤ (((u + E * (1 + u)) * X + n * (1 + E) * η) * W + X * (E * W)) / (((1 - E) * W) * W) :=
          div_le_div_of_nonneg_left hnum (mul_pos (mul_pos h1E hW) hW) (mul_le_mul_of_nonneg_right hV1 hW.le)
      _ = D := by
          rw [hD, hM]
          field_simp
          ring
  have hmabs : |mean l| ≤ meanAbs l := by
    rw [hmean, hM, abs_div, abs_of_pos hW]
    exact div_le_div_of_nonneg_right hYX hW.le
  have hr := hN.near hF (S / V)
  have hQ' : |S / V| ≤ meanAbs l + D := by
    have := abs_add_le (S / V - mean l) (mean l)
    rw [sub_add_cancel] at this
    linarith
  have h9 := abs_add_le (rnd (S / V) - S / V) (S / V - mean l)
  rw [sub_add_sub_cancel] at h9
  have : u * |S / V| ≤ u * (meanAbs l + D) := mul_le_mul_of_nonneg_left hQ' hu
  nlinarith

/-- **C123** A linear merge in floating point differs from the weighted mean, taken exactly with the weights the data type has, by no more than
a few units of its precision times the mean magnitude (`D` collects products, sums and underflow). -/
theorem C123_linear {M : Type} (A : Arith K) (hF : Format F u η) (hN : Nearest F A.rnd) {ε : Nat → K} (hS : Adds F A.sum ε) (isEmbed : Bool)
    (weight : M → K) (tensors : List (M × Tensor K)) (shape : List Nat) (hsh : ∀ e ∈ tensors, e.2.shape = shape)
    (hw : ∀ e ∈ tensors, 0 ≤ weight e.1) (hW : 0 < (tensors.map (fun e => A.rnd (weight e.1))).sum) (hε0 : 0 ≤ ε tensors.length)
    (hε : ε tensors.length < 1) :
    ∃ t, flLinear A isEmbed true weight tensors = .ok t ∧ t.shape = shape ∧ ∀ i,
      let l := tensors.map (fun e => (A.rnd (weight e.1), e.2.get i))
      let D := ((u + 2 * ε tensors.length + ε tensors.length * u) * meanAbs l +
        tensors.length * (1 + ε tensors.length) * η / (l.map Prod.fst).sum) / (1 - ε tensors.length)
      |t.get i - mean l| ≤ (1 + u) * D + u * meanAbs l + η := by
  have hne : tensors ≠ [] := by
    rintro rfl
    simp at hW
  have key := fun i => entry_bound hN hF hS (tensors.map (fun e => (A.rnd (weight e.1), e.2.get i))) (by
    intro x hx
    obtain ⟨e, he, rfl⟩ := List.mem_map.1 hx
    refine ⟨(hN _).1, ?_⟩
    have := hN.mono (hw e he)
    rwa [hN.fixed hF.zero] at this) (by rw [List.map_map]; exact hW) (by rw [List.length_map]; exact hε0) (by rw [List.length_map]; exact hε)
  have hf : ∀ i, (tensors.map (fun e => (A.rnd (weight e.1), e.2.get i))).map Prod.fst = tensors.map (fun e => A.rnd (weight e.1)) := by
    intro i
    rw [List.map_map]
    rfl
  have hs0 : A.sum (tensors.map (fun e => A.rnd (weight e.1))) ≠ 0 := by
    have := (key 0).1
    rw [hf] at this
    exact this.ne'
  refine ⟨_, (flLinear_eq A isEmbed weight tensors shape hne hsh).1 hs0, rfl, fun i => ?_⟩
  have := (key i).2
  rw [hf, List.length_map, List.map_map] at this
  simp only
  rw [hf]
  exact this

/-- **C123** What it means that the weights themselves are rounded: the mean moves by at most the spread of the models times the relative error of
the weights. -/
theorem C123_weights (hF : Format F u η) (hN : Nearest F rnd) (l : List (K × K)) (hw : ∀ e ∈ l, 0 ≤ e.1) (hW : 0 < (l.map Prod.fst).sum)
    (hW' : 0 < (l.map (fun e => rnd e.1)).sum) (R : K) (hR : ∀ e ∈ l, |e.2 - mean l| ≤ R) :
    |mean (l.map (fun e => (rnd e.1, e.2))) - mean l| ≤ R * (u * (l.map Prod.fst).sum + l.length * η) / (l.map (fun e => rnd e.1)).sum := by
  set μ := mean l with hμ
  set W' := (l.map (fun e => rnd e.1)).sum with hW'def
  have h0 : (l.map (fun e => e.1 * (e.2 - μ))).sum = 0 := by
    have h1 : (l.map (fun e => e.1 * (e.2 - μ))).sum = (l.map (fun e => e.1 * e.2)).sum - μ * (l.map Prod.fst).sum := by
      exact sum_shift l Prod.fst μ
    rw [h1, hμ]
    unfold mean
    rw [div_mul_cancel₀ _ hW.ne', sub_self]
  have h2 : mean (l.map (fun e => (rnd e.1, e.2))) - μ = (l.map (fun e => rnd e.1 * (e.2 - μ))).sum / W' := by
    have h3 : (l.map (fun e => rnd e.1 * (e.2 - μ))).sum = (l.map (fun e => rnd e.1 * e.2)).sum - μ * W' := by
      exact sum_shift l (fun e => rnd e.1) μ
    unfold mean
    rw [List.map_map, List.map_map, h3, sub_div, mul_div_assoc, div_self hW'.ne', mul_one]
    rfl
  rw [h2, abs_div, abs_of_pos hW']
  refine div_le_div_of_nonneg_right ?_ hW'.le
  have h4 := sum_abs_sub l (fun e => rnd e.1 * (e.2 - μ)) (fun e => e.1 * (e.2 - μ)) (fun e => (R * u) * e.1 + R * η) (by
    intro e he
    rw [← sub_mul, abs_mul]
    have h5 := hN.near hF e.1
    rw [abs_of_nonneg (hw e he)] at h5
    have h6 := mul_le_mul h5 (hR e he) (abs_nonneg _) (le_trans (abs_nonneg _) h5)
    refine h6.trans (le_of_eq ?_)
    ring)
  rw [h0, sub_zero, sum_map_affine l (fun e => e.1) (R * u) (R * η)] at h4
  refine h4.trans (le_of_eq ?_)
  rw [show (l.map (fun e => e.1)).sum = (l.map Prod.fst).sum from rfl]
  ring

/-- **C123** Larger entries give a larger result, exactly, for weights that are not negative. -/
theorem C123_monotone {M : Type} (A : Arith K) (hF : Format F u η) (hN : Nearest F A.rnd) {ε : Nat → K} (hS : Adds F A.sum ε)
    (isEmbed normalize : Bool) (weight : M → K) (ms : List M) (x y : M → Tensor K) (shape : List Nat) (hne : ms ≠ [])
    (hx : ∀ m ∈ ms, (x m).shape = shape) (hy : ∀ m ∈ ms, (y m).shape = shape) (hw : ∀ m ∈ ms, 0 ≤ weight m)
    (hW : A.sum (ms.map (fun m => A.rnd (weight m))) ≠ 0) :
    ∃ t t', flLinear A isEmbed normalize weight (ms.map (fun m => (m, x m))) = .ok t ∧
      flLinear A isEmbed normalize weight (ms.map (fun m => (m, y m))) = .ok t' ∧
      ∀ i, (∀ m ∈ ms, (x m).get i ≤ (y m).get i) → t.get i ≤ t'.get i := by
  have e : ∀ z : M → Tensor K, (∀ m ∈ ms, (z m).shape = shape) →
      flLinear A isEmbed normalize weight (ms.map (fun m => (m, z m))) = .ok ⟨shape, fun i =>
        if normalize then A.rnd (A.sum (ms.map (fun m => A.rnd (A.rnd (weight m) * (z m).get i))) / A.sum (ms.map (fun m => A.rnd (weight m))))
        else A.sum (ms.map (fun m => A.rnd (A.rnd (weight m) * (z m).get i)))⟩ := by
    intro z hz
    have h := flLinear_eq A isEmbed weight (ms.map (fun m => (m, z m))) shape (by simpa using hne) (by
      intro e he
      obtain ⟨m, hm, rfl⟩ := List.mem_map.1 he
      exact hz m hm)
    simp only [List.map_map] at h
    cases normalize with
    | false => exact h.2
    | true => exact h.1 hW
  refine ⟨_, _, e x hx, e y hy, fun i hle => ?_⟩
  have hsum : A.sum (ms.map (fun m => A.rnd (A.rnd (weight m) * (x m).get i))) ≤ A.sum (ms.map (fun m => A.rnd (A.rnd (weight m) * (y m).get i))) := by
    apply hS.mono
    rw [List.forall₂_map_left_iff, List.forall₂_map_right_iff, List.forall₂_same]
    intro m hm
    have h0 : 0 ≤ A.rnd (weight m) := by
      have := hN.mono (hw m hm)
      rwa [hN.fixed hF.zero] at this
    exact hN.mono (mul_le_mul_of_nonneg_left (hle m hm) h0)
  have hpos : 0 ≤ A.sum (ms.map (fun m => A.rnd (weight m))) := by
    have h1 := hS.mono (ms.map (fun _ => (0 : K))) (ms.map (fun m => A.rnd (weight m))) (by
      rw [List.forall₂_map_left_iff, List.forall₂_map_right_iff, List.forall₂_same]
      intro m hm
      have := hN.mono (hw m hm)
      rwa [hN.fixed hF.zero] at this)
    rw [hS.zeros hF (ms.map (fun _ => (0 : K))) (by
      intro z hz
      obtain ⟨_, _, rfl⟩ := List.mem_map.1 hz
      rfl)] at h1
    exact h1
  simp only
  cases normalize with
  | false => exact hsum
  | true => exact hN.mono (div_le_div_of_nonneg_right hsum hpos)

/-- **C123** One model of weight one is returned bit for bit, normalised or not. -/
theorem C123_single {M : Type} (A : Arith K) (hF : Format F u η) (hN : Nearest F A.rnd) {ε : Nat → K} (hS : Adds F A.sum ε)
    (isEmbed normalize : Bool) (weight : M → K) (m : M) (hw : weight m = 1) (t : Tensor K) (ht : ∀ i, t.get i ∈ F) :
    flLinear A isEmbed normalize weight [(m, t)] = .ok t := by
  have h := flLinear_eq A isEmbed weight [(m, t)] t.shape (by simp) (by simp)
  simp only [List.map_cons, List.map_nil, hw, hN.fixed hF.one, one_mul, hS.single 1 hF.one] at h
  have e : (fun i => A.rnd (A.sum [A.rnd (t.get i)] / 1)) = t.get := by
    funext i
    rw [hN.fixed (ht i), hS.single _ (ht i), div_one, hN.fixed (ht i)]
  have e' : (fun i => A.sum [A.rnd (t.get i)]) = t.get := by
    funext i
    rw [hN.fixed (ht i), hS.single _ (ht i)]
  cases normalize with
  | false => rw [h.2, e']
  | true => rw [h.1 one_ne_zero, e]

/-! ## Task arithmetic -/

theorem flTaskVectors_zero {M : Type} [DecidableEq M] (A : Arith K) (hF : Format F u η) (hN : Nearest F A.rnd) (isEmbed : Bool) (b : M) (base : Tensor K)
    (i : Nat) (tensors : List (M × Tensor K))
    (h : ∀ e ∈ tensors, e.1 ≠ b → (e.2.shape = base.shape ∧ e.2.get i = base.get i) ∨ (e.2.shape ≠ base.shape ∧ isEmbed = false)) :
    ∀ ds, flTaskVectors A isEmbed b base tensors = .ok ds → ∀ d ∈ ds, d.2.get i = 0 := by
  induction tensors with
  | nil =>
    intro ds hd
    cases hd
    simp
  | cons e tensors ih =>
    obtain ⟨m, x⟩ := e
    intro ds hd
    have ih' := ih (fun e he => h e (List.mem_cons_of_mem _ he))
    unfold flTaskVectors at hd
    by_cases hm : m = b
    · rw [if_pos hm] at hd
      exact ih' ds hd
    · rw [if_neg hm] at hd
      rcases h (m, x) (List.mem_cons_self ..) hm with ⟨h1, h2⟩ | h3
      · simp only at h1 h2
        rw [if_neg (by simp [h1])] at hd
        simp only [h1, if_true, map2] at hd
        cases hr : flTaskVectors A isEmbed b base tensors with
        | error er => rw [hr] at hd; cases hd
        | ok ds' =>
          rw [hr] at hd
          cases hd
          intro d hdm
          rcases List.mem_cons.1 hdm with rfl | hdm
          · simp only [h2, sub_self]
            exact hN.fixed hF.zero
          · exact ih' ds' hr d hdm
      · rw [if_pos h3] at hd
        exact ih' ds hd

theorem sparsifyAll_zero {M : Type} (sp : M → Tensor K → Except Err (Tensor K)) (i : Nat)
    (hsp : ∀ m d d', sp m d = .ok d' → d.get i = 0 → d'.get i = 0) (ds : List (M × Tensor K)) (h : ∀ d ∈ ds, d.2.get i = 0) :
    ∀ ds', sparsifyAll sp ds = .ok ds' → ∀ d ∈ ds', d.2.get i = 0 := by
  induction ds with
  | nil =>
    intro ds' hd
    cases hd
    simp
  | cons e ds ih =>
    obtain ⟨m, x⟩ := e
    intro ds' hd
    unfold sparsifyAll at hd
    cases h1 : sp m x with
    | error er => rw [h1] at hd; cases hd
    | ok x' =>
      cases h2 : sparsifyAll sp ds with
      | error er => rw [h1, h2] at hd; cases hd
      | ok rest =>
        rw [h1, h2] at hd
        cases hd
        intro d hdm
        rcases List.mem_cons.1 hdm with rfl | hdm
        · exact hsp m x x' h1 (h (m, x) (List.mem_cons_self ..))
        · exact ih (fun d hd => h d (List.mem_cons_of_mem _ hd)) rest h2 d hdm

theorem flMix_zero (A : Arith K) (hF : Format F u η) (hN : Nearest F A.rnd) {ε : Nat → K} (hS : Adds F A.sum ε) (consensus : Option Consensus)
    (normalize : Bool) (lam : K) (es : List (K × K)) (h : ∀ e ∈ es, e.2 = 0) : flMix A consensus normalize lam es = 0 := by
  have h0 := hN.fixed hF.zero
  have hw : ∀ x ∈ es.map (fun e => A.rnd (e.2 * A.rnd e.1)), x = 0 := by
    intro x hx
    obtain ⟨e, he, rfl⟩ := List.mem_map.1 hx
    rw [h e he, zero_mul, h0]
  have hs := hS.zeros hF _ hw
  have hm : ∀ mk : List Bool, A.sum (((es.map (fun e => A.rnd (e.2 * A.rnd e.1))).zip mk).map (fun e => A.rnd (e.1 * ofBool e.2))) = 0 := by
    intro mk
    apply hS.zeros hF
    intro x hx
    obtain ⟨e, he, rfl⟩ := List.mem_map.1 hx
    rw [hw e.1 (List.of_mem_zip he).1, zero_mul, h0]
  have fin : ∀ d : K, (if lam ≠ 1 then A.rnd ((if normalize = true then A.rnd (0 / d) else 0) * lam) else
      if normalize = true then A.rnd (0 / d) else 0) = 0 := by
    intro d
    simp [h0]
  unfold flMix
  cases consensus with
  | none => simp only [hs]; exact fin _
  | some method => simp only [hm]; exact fin _

/-- **C123** Where all models agree with the base, the result is that of the base bit for bit: for task arithmetic and all its relatives, whatever
the weights, the density, the kind of consensus and the data type.  (`sp`, the sparsification, keeps zeros zero.) -/
theorem C123_unchanged {M : Type} [DecidableEq M] (A : Arith K) (hF : Format F u η) (hN : Nearest F A.rnd) {ε : Nat → K} (hS : Adds F A.sum ε)
    (consensus : Option Consensus) (isEmbed normalize : Bool) (lam : K) (weight : M → K) (sp : M → Tensor K → Except Err (Tensor K)) (b : M)
    (tensors : List (M × Tensor K)) (base : Tensor K) (hb : (b, base) ∈ tensors) (hk : (tensors.map Prod.fst).Nodup) (i : Nat)
    (hi : base.get i ∈ F) (hsp : ∀ m d d', sp m d = .ok d' → d.get i = 0 → d'.get i = 0)
    (h : ∀ e ∈ tensors, e.1 ≠ b → (e.2.shape = base.shape ∧ e.2.get i = base.get i) ∨ (e.2.shape ≠ base.shape ∧ isEmbed = false)) (t : Tensor K)
    (ht : flGta A consensus isEmbed normalize lam weight sp b tensors = .ok t) : t.get i = base.get i := by
  have hl : lookup tensors b = some base := by
    clear h ht
    unfold lookup
    induction tensors with
    | nil => cases hb
    | cons e tensors ih =>
      simp only [List.map_cons, List.nodup_cons] at hk
      rcases List.mem_cons.1 hb with rfl | hb
      · simp
      · have : e.1 ≠ b := fun he => hk.1 (List.mem_map.2 ⟨(b, base), hb, he.symm⟩)
        rw [List.find?_cons_of_neg (by simpa using this)]
        exact ih hb hk.2
  unfold flGta at ht
  rw [hl] at ht
  simp only at ht
  cases hv : flTaskVectors A isEmbed b base tensors with
  | error er => rw [hv] at ht; cases ht
  | ok ds =>
    have hz := flTaskVectors_zero A hF hN isEmbed b base i tensors h ds hv
    rw [hv] at ht
    cases ds with
    | nil =>
      cases ht
      rfl
    | cons tv tvs =>
      simp only at ht
      cases hs : sparsifyAll sp (tv :: tvs) with
      | error er => rw [hs] at ht; cases ht
      | ok ds' =>
        rw [hs] at ht
        cases ht
        have hz' := sparsifyAll_zero sp i hsp _ hz ds' hs
        simp only
        rw [flMix_zero A hF hN hS consensus normalize lam _ (by
          intro e he
          obtain ⟨d, hd, rfl⟩ := List.mem_map.1 he
          exact hz' d hd), add_zero, hN.fixed hi]

/-- Task arithmetic with one model of weight one. -/
theorem one_model {M : Type} [DecidableEq M] (A : Arith K) (hF : Format F u η) (hN : Nearest F A.rnd) {ε : Nat → K} (hS : Adds F A.sum ε)
    (consensus : Option Consensus) (isEmbed normalize : Bool) (weight : M → K) (b m : M) (hm : m ≠ b) (hw : weight m = 1) (base x : Tensor K)
    (hsh : x.shape = base.shape) (tensors : List (M × Tensor K)) (ht : tensors = [(b, base), (m, x)] ∨ tensors = [(m, x), (b, base)]) :
    flGta A consensus isEmbed normalize 1 weight (fun _ d => .ok d) b tensors =
      .ok ⟨base.shape, fun i => A.rnd (base.get i + A.rnd (x.get i - base.get i))⟩ := by
  have hl : lookup tensors b = some base := by
    rcases ht with rfl | rfl
    · simp [lookup]
    · simp [lookup, hm]
  have hv : flTaskVectors A isEmbed b base tensors = .ok [(m, ⟨base.shape, fun i => A.rnd (x.get i - base.get i)⟩)] := by
    rcases ht with rfl | rfl <;> simp [flTaskVectors, hm, hsh, map2]
  have hmix : ∀ d ∈ F, flMix A consensus normalize 1 [(1, d)] = d := by
    intro d hd
    have h1 := hN.fixed hF.one
    have h0 := hN.fixed hF.zero
    have hd' := hN.fixed hd
    unfold flMix
    cases consensus with
    | none =>
      have : ¬ (1 : K) < 1 / 100000000 := by norm_num
      simp [h1, hd', hS.single d hd, hS.single 1 hF.one, this]
    | some method =>
      by_cases hz : d = 0
      · subst hz
        simp only [List.map_cons, List.map_nil, h1, mul_one, h0, flMask, sgn, List.zip_cons_cons, List.zip_nil_left, lt_irrefl, if_false]
        have hmaj : flMajority A method [0] ≠ 0 := by
          unfold flMajority
          cases method <;> (simp only; split <;> simp)
        have : decide ((0 : K) = flMajority A method [0]) = false := by simpa using hmaj.symm
        simp [this, ofBool, h0, hS.single 0 hF.zero]
      · have hsg : sgn d = flMajority A method [d] := by
          unfold flMajority sgn
          rcases lt_trichotomy d 0 with h | h | h
          · cases method
            · simp [hS.single d hd, not_lt.2 h.le, h, not_le.2 h]
            · simp [sgn, not_lt.2 h.le, h]
          · exact absurd h hz
          · cases method
            · simp [hS.single d hd, h, h.le]
            · simp [sgn, h]
        simp [h1, hd', flMask, ← hsg, ofBool, hS.single d hd, hS.single 1 hF.one]
  unfold flGta
  rw [hl]
  simp only [hv, sparsifyAll, List.map_cons, List.map_nil, hw]
  congr 2
  funext i
  rw [hmix _ (hN _).1]

/-- **C123** Task arithmetic (or any relative without sparsification) with one model of weight one: the result is the model up to the rounding of
its distance from the base. -/
theorem C123_one_model {M : Type} [DecidableEq M] (A : Arith K) (hF : Format F u η) (hN : Nearest F A.rnd) {ε : Nat → K} (hS : Adds F A.sum ε)
    (consensus : Option Consensus) (isEmbed normalize : Bool) (weight : M → K) (b m : M) (hm : m ≠ b) (hw : weight m = 1) (base x : Tensor K)
    (hsh : x.shape = base.shape) (hbF : ∀ i, base.get i ∈ F) (hxF : ∀ i, x.get i ∈ F) (tensors : List (M × Tensor K))
    (ht : tensors = [(b, base), (m, x)] ∨ tensors = [(m, x), (b, base)]) :
    ∃ t, flGta A consensus isEmbed normalize 1 weight (fun _ d => .ok d) b tensors = .ok t ∧ t.shape = x.shape ∧ ∀ i,
      |t.get i - x.get i| ≤ u * |x.get i| + u * (1 + u) * |x.get i - base.get i| ∧
      (x.get i - base.get i ∈ F → t.get i = x.get i) := by
  refine ⟨_, one_model A hF hN hS consensus isEmbed normalize weight b m hm hw base x hsh tensors ht, hsh.symm, fun i => ⟨?_, fun hs => ?_⟩⟩
  · simp only
    set B := base.get i
    set X := x.get i
    have h1 := hN.near_sub hF (hxF i) (hbF i)
    have h2 := hN.near_add hF (hbF i) (hN (X - B)).1
    have hu := hF.u_nonneg
    have h3 : |B + A.rnd (X - B)| ≤ |X| + u * |X - B| := by
      have : B + A.rnd (X - B) = X + (A.rnd (X - B) - (X - B)) := by ring
      rw [this]
      have := abs_add_le X (A.rnd (X - B) - (X - B))
      linarith
    have h4 : A.rnd (B + A.rnd (X - B)) - X = (A.rnd (B + A.rnd (X - B)) - (B + A.rnd (X - B))) + (A.rnd (X - B) - (X - B)) := by ring
    rw [h4]
    refine (abs_add_le _ _).trans ?_
    have := mul_le_mul_of_nonneg_left h3 hu
    nlinarith
  · simp only
    rw [hN.fixed hs, add_sub_cancel, hN.fixed (hxF i)]

/-- **C123** Entries that nearswap takes from the other model are taken bit for bit, and a tensor that only the base model has is the base model's. -/
theorem C123_nearswap (A : Arith K) (hF : Format F u η) (hN : Nearest F A.rnd) (base b : Tensor K) (hsh : base.shape = b.shape) (t : K)
    (ht : 1 / 1000000 ≤ t) : flNearswap A [] base t = .ok base ∧
      ∃ r, flNearswap A [b] base t = .ok r ∧ ∀ i, b.get i ∈ F → |A.rnd (base.get i - b.get i)| ≤ t → r.get i = b.get i := by
  refine ⟨rfl, _, by unfold flNearswap map2; simp only [hsh, if_true]; rfl, fun i hb hi => ?_⟩
  simp only
  have hpos : (0 : K) < 1 / 1000000 := by norm_num
  have hmx : 0 < max |A.rnd (base.get i - b.get i)| (1 / 1000000 : K) := lt_max_of_lt_right hpos
  have h1 : (1 : K) ≤ t / max |A.rnd (base.get i - b.get i)| (1 / 1000000) := by
    rw [le_div_iff₀ hmx, one_mul]
    exact max_le hi ht
  have h2 := hN.mono h1
  rw [hN.fixed hF.one] at h2
  have h3 : clamp 0 1 (A.rnd (t / max |A.rnd (base.get i - b.get i)| (1 / 1000000))) = 1 := by
    unfold clamp
    exact min_eq_right (le_max_of_le_left h2)
  rw [h3, one_mul, hN.fixed hb, sub_self, hN.fixed hF.zero, zero_mul, hN.fixed hF.zero, add_zero, hN.fixed hb]

/-! ## Task arithmetic with several models -/

theorem flTaskVectors_same {M : Type} [DecidableEq M] (A : Arith K) (isEmbed : Bool) (b : M) (base : Tensor K) (tensors : List (M × Tensor K))
    (h : ∀ e ∈ tensors, e.2.shape = base.shape) :
    flTaskVectors A isEmbed b base tensors =
      .ok ((tensors.filter (fun e => decide (e.1 ≠ b))).map (fun e => (e.1, ⟨base.shape, fun i => A.rnd (e.2.get i - base.get i)⟩))) := by
  induction tensors with
  | nil => rfl
  | cons e tensors ih =>
    obtain ⟨m, x⟩ := e
    have hs : x.shape = base.shape := h (m, x) (List.mem_cons_self ..)
    have ih' := ih (fun e he => h e (List.mem_cons_of_mem _ he))
    unfold flTaskVectors
    by_cases hm : m = b
    · rw [if_pos hm, ih', List.filter_cons_of_neg (by simpa using hm)]
    · rw [if_neg hm, if_neg (by simp [hs]), List.filter_cons_of_pos (by simpa using hm)]
      simp [hs, map2, ih']

theorem sparsifyAll_id {M : Type} (ds : List (M × Tensor K)) : sparsifyAll (fun _ d => .ok d) ds = .ok ds := by
  induction ds with
  | nil => rfl
  | cons e ds ih =>
    obtain ⟨m, d⟩ := e
    simp [sparsifyAll, ih]

/-- The entry `r` is close to the base entry `B` plus `lam` times the sum of the weighted differences, over models with the pairs `l` of weights and
entries: the error is a few units of the precision times the exact result and the magnitudes `T` of the weighted differences. `E` bounds the relative
error of the summation. -/
def TaskClose (rnd : K → K) (E u η lam B : K) (l : List (K × K)) (r : K) : Prop :=
  let T := (l.map (fun e => |rnd e.1| * |e.2 - B|)).sum
  let exact := B + lam * (l.map (fun e => rnd e.1 * (e.2 - B))).sum
  let D := ((1 + E) * (1 + u) ^ 2 - 1) * T + l.length * (1 + E) * η
  let D' := |lam| * ((1 + u) * D + u * T) + η
  |r - exact| ≤ (1 + u) * D' + u * |exact| + η

theorem mixed_bound (A : Arith K) (hF : Format F u η) (hN : Nearest F A.rnd) {ε : Nat → K} (hS : Adds F A.sum ε) (lam B : K) (l : List (K × K))
    (hB : B ∈ F) (hl : ∀ e ∈ l, e.2 ∈ F) (hε0 : 0 ≤ ε l.length) :
    TaskClose A.rnd (ε l.length) u η lam B l (A.rnd (B + flMix A none false lam (l.map (fun e => (e.1, A.rnd (e.2 - B)))))) := by
  unfold TaskClose
  intro T exact D D'
  set n := l.length with hn
  set E := ε n with hE
  have hu := hF.u_nonneg
  have hη := hF.eta_nonneg
  have hd : ∀ e ∈ l, |A.rnd (e.2 - B) - (e.2 - B)| ≤ u * |e.2 - B| := fun e he => hN.near_sub hF (hl e he) hB
  have hd' : ∀ e ∈ l, |A.rnd (e.2 - B)| ≤ (1 + u) * |e.2 - B| := by
    intro e he
    have h1 := hd e he
    have h2 := abs_add_le (A.rnd (e.2 - B) - (e.2 - B)) (e.2 - B)
    rw [sub_add_cancel] at h2
    linarith
  have hq : ∀ e ∈ l, |A.rnd (A.rnd (e.2 - B) * A.rnd e.1) - A.rnd e.1 * (e.2 - B)| ≤ (2 * u + u ^ 2) * (|A.rnd e.1| * |e.2 - B|) + η := by
    intro e he
    have h1 := hN.near hF (A.rnd (e.2 - B) * A.rnd e.1)
    rw [abs_mul] at h1
    have h2 : A.rnd (A.rnd (e.2 - B) * A.rnd e.1) - A.rnd e.1 * (e.2 - B) =
        (A.rnd (A.rnd (e.2 - B) * A.rnd e.1) - A.rnd (e.2 - B) * A.rnd e.1) + A.rnd e.1 * (A.rnd (e.2 - B) - (e.2 - B)) := by ring
    rw [h2]
    refine (abs_add_le _ _).trans ?_
    rw [abs_mul (A.rnd e.1)]
    have h3 := mul_le_mul_of_nonneg_left (hd e he) (abs_nonneg (A.rnd e.1))
    have h4 := mul_le_mul_of_nonneg_right (hd' e he) (abs_nonneg (A.rnd e.1))
    have h5 := mul_le_mul_of_nonneg_left h4 hu
    nlinarith
  have hS1 := sum_abs_sub l (fun e => A.rnd (A.rnd (e.2 - B) * A.rnd e.1)) (fun e => A.rnd e.1 * (e.2 - B))
    (fun e => (2 * u + u ^ 2) * (|A.rnd e.1| * |e.2 - B|) + η) hq
  rw [sum_map_affine l (fun e => |A.rnd e.1| * |e.2 - B|)] at hS1
  have hS2 := hS.accurate (l.map (fun e => A.rnd (A.rnd (e.2 - B) * A.rnd e.1))) (by
    intro x hx
    obtain ⟨e, _, rfl⟩ := List.mem_map.1 hx
    exact (hN _).1)
  rw [List.length_map] at hS2
  have hS3 : ((l.map (fun e => A.rnd (A.rnd (e.2 - B) * A.rnd e.1))).map (fun x => |x|)).sum ≤ (1 + u) ^ 2 * T + n * η := by
    have : ((l.map (fun e => A.rnd (A.rnd (e.2 - B) * A.rnd e.1))).map (fun x => |x|)).sum ≤
        (l.map (fun e => (1 + u) ^ 2 * (|A.rnd e.1| * |e.2 - B|) + η)).sum := by
      rw [List.map_map]
      apply List.sum_le_sum
      intro e he
      simp only [Function.comp]
      have h1 := hq e he
      have h2 := abs_add_le (A.rnd (A.rnd (e.2 - B) * A.rnd e.1) - A.rnd e.1 * (e.2 - B)) (A.rnd e.1 * (e.2 - B))
      rw [sub_add_cancel, abs_mul (A.rnd e.1)] at h2
      nlinarith
    rwa [sum_map_affine l (fun e => |A.rnd e.1| * |e.2 - B|)] at this
  have hflat : flMix A none false lam (l.map (fun e => (e.1, A.rnd (e.2 - B)))) =
      if lam ≠ 1 then A.rnd (A.sum (l.map (fun e => A.rnd (A.rnd (e.2 - B) * A.rnd e.1))) * lam)
      else A.sum (l.map (fun e => A.rnd (A.rnd (e.2 - B) * A.rnd e.1))) := by
    simp only [flMix, List.map_map, Bool.false_eq_true, if_false]
    rfl
  set S := A.sum (l.map (fun e => A.rnd (A.rnd (e.2 - B) * A.rnd e.1))) with hSdef
  set Y := (l.map (fun e => A.rnd e.1 * (e.2 - B))).sum with hY
  have hT : 0 ≤ T := List.sum_nonneg (by
    intro x hx
    obtain ⟨e, _, rfl⟩ := List.mem_map.1 hx
    positivity)
  have hSY : |S - Y| ≤ D := by
    have h1 := abs_add_le (S - (l.map (fun e => A.rnd (A.rnd (e.2 - B) * A.rnd e.1))).sum)
      ((l.map (fun e => A.rnd (A.rnd (e.2 - B) * A.rnd e.1))).sum - Y)
    rw [sub_add_sub_cancel] at h1
    have h2 := mul_le_mul_of_nonneg_left hS3 hε0
    have h3 : D = (2 * u + u ^ 2) * T + n * η + E * ((1 + u) ^ 2 * T + n * η) := by
      simp only [D]
      ring
    rw [h3]
    linarith [hS1, hS2]
  have hD0 : 0 ≤ D := le_trans (abs_nonneg _) hSY
  have hYT : |Y| ≤ T := by
    have := sum_abs_sub l (fun e => A.rnd e.1 * (e.2 - B)) (fun _ => 0) (fun e => |A.rnd e.1| * |e.2 - B|) (by
      intro e _
      rw [sub_zero, abs_mul])
    simpa using this
  set m := flMix A none false lam (l.map (fun e => (e.1, A.rnd (e.2 - B)))) with hm
  have hmY : |m - lam * Y| ≤ D' := by
    have hlam : |S * lam - lam * Y| ≤ |lam| * D := by
      have : S * lam - lam * Y = lam * (S - Y) := by ring
      rw [this, abs_mul]
      exact mul_le_mul_of_nonneg_left hSY (abs_nonneg _)
    have hST : |S| ≤ T + D := by
      have := abs_add_le (S - Y) Y
      rw [sub_add_cancel] at this
      linarith
    have hDl : 0 ≤ u * (|lam| * (T + D)) := by positivity
    rw [hflat]
    by_cases h1 : lam = 1
    · rw [if_neg (by simpa using h1)]
      subst h1
      simp only [D', one_mul, mul_one, abs_one] at hlam hDl ⊢
      nlinarith
    · rw [if_pos h1]
      have h2 := hN.near hF (S * lam)
      rw [abs_mul] at h2
      have h3 := abs_add_le (A.rnd (S * lam) - S * lam) (S * lam - lam * Y)
      rw [sub_add_sub_cancel] at h3
      have h4 : u * (|S| * |lam|) ≤ u * ((T + D) * |lam|) := by gcongr
      simp only [D']
      nlinarith
  have hr := hN.near hF (B + m)
  have he : B + m - exact = m - lam * Y := by
    simp only [exact]
    ring
  have hbm : |B + m| ≤ |exact| + D' := by
    have := abs_add_le (B + m - exact) exact
    rw [sub_add_cancel, he] at this
    linarith
  have h9 := abs_add_le (A.rnd (B + m) - (B + m)) (B + m - exact)
  rw [sub_add_sub_cancel, he] at h9
  have := mul_le_mul_of_nonneg_left hbm hu
  linarith

/-- **C123** Task arithmetic in floating point differs from the base plus the weighted sum of the differences, taken exactly with the weights the
data type has, by no more than a few units of its precision times the result and the magnitudes `T` of the weighted differences. -/
theorem C123_task_arithmetic {M : Type} [DecidableEq M] (A : Arith K) (hF : Format F u η) (hN : Nearest F A.rnd) {ε : Nat → K}
    (hS : Adds F A.sum ε) (isEmbed : Bool) (lam : K) (weight : M → K) (b : M) (base : Tensor K) (tensors : List (M × Tensor K))
    (hb : lookup tensors b = some base) (hsh : ∀ e ∈ tensors, e.2.shape = base.shape) (hx : ∀ e ∈ tensors, ∀ i, e.2.get i ∈ F)
    (hε0 : ∀ n, 0 ≤ ε n) :
    ∃ t, flGta A none isEmbed false lam weight (fun _ d => .ok d) b tensors = .ok t ∧ t.shape = base.shape ∧ ∀ i,
      TaskClose A.rnd (ε (tensors.filter (fun e => decide (e.1 ≠ b))).length) u η lam (base.get i)
        ((tensors.filter (fun e => decide (e.1 ≠ b))).map (fun e => (weight e.1, e.2.get i))) (t.get i) := by
  have hbm : (b, base) ∈ tensors := by
    unfold lookup at hb
    obtain ⟨e, he, rfl⟩ := Option.map_eq_some_iff.1 hb
    have h1 := List.find?_some he
    have h2 := List.mem_of_find?_eq_some he
    obtain ⟨m, x⟩ := e
    simp only [decide_eq_true_eq] at h1
    subst h1
    exact h2
  have hbF : ∀ i, base.get i ∈ F := fun i => hx _ hbm i
  have hv := flTaskVectors_same A isEmbed b base tensors hsh
  have hu := hF.u_nonneg
  have hη := hF.eta_nonneg
  cases hf : tensors.filter (fun e => decide (e.1 ≠ b)) with
  | nil =>
    rw [hf] at hv
    refine ⟨base, ?_, rfl, fun i => ?_⟩
    · unfold flGta
      rw [hb]
      simp only [hv, List.map_nil]
    · unfold TaskClose
      simp only [List.map_nil, List.sum_nil, mul_zero, add_zero, sub_self, abs_zero]
      have : 0 ≤ u * |base.get i| := mul_nonneg hu (abs_nonneg _)
      simp only [List.length_nil, Nat.cast_zero, zero_mul, add_zero, zero_add, mul_zero]
      have : 0 ≤ (1 + u) * η := mul_nonneg (by linarith) hη
      linarith
  | cons e0 es =>
    rw [hf] at hv
    refine ⟨⟨base.shape, fun i => A.rnd (base.get i + flMix A none false lam (((e0 :: es).map (fun e => (weight e.1, e.2.get i))).map
      (fun e => (e.1, A.rnd (e.2 - base.get i)))))⟩, ?_, rfl, fun i => ?_⟩
    · unfold flGta
      rw [hb]
      simp only [hv, List.map_cons, sparsifyAll_id, List.map_map]
      rfl
    · have := mixed_bound A hF hN hS lam (base.get i) ((e0 :: es).map (fun e => (weight e.1, e.2.get i))) (hbF i) (by
        intro e he
        obtain ⟨x, hxm, rfl⟩ := List.mem_map.1 he
        exact hx x (List.mem_of_mem_filter (hf ▸ hxm)) i) (hε0 _)
      rw [List.length_map] at this
      exact this

end

/-! ## Binary formats -/

/-- The numbers of a binary format with `p` digits and smallest exponent `emin`, without a largest number: float32 has 24 digits and exponents from
-149, float16 11 and -24, bfloat16 8 and -133. -/
def binary (p : Nat) (emin : Int) : Set ℚ := {x | ∃ m e : Int, x = m * (2 : ℚ) ^ e ∧ |m| ≤ 2 ^ p ∧ emin ≤ e}

theorem binary_neg {p : Nat} {emin : Int} {x : ℚ} (h : x ∈ binary p emin) : -x ∈ binary p emin := by
  obtain ⟨m, e, rfl, hm, he⟩ := h
  exact ⟨-m, e, by push_cast; ring, by rwa [abs_neg], he⟩

theorem binary_multiple {p : Nat} {emin : Int} {x : ℚ} (h : x ∈ binary p emin) : ∃ k : Int, x = k * (2 : ℚ) ^ emin := by
  obtain ⟨m, e, rfl, _, he⟩ := h
  refine ⟨m * 2 ^ (e - emin).toNat, ?_⟩
  push_cast
  rw [mul_assoc, ← zpow_natCast, Int.toNat_of_nonneg (by omega), ← zpow_add₀ (by norm_num)]
  congr 2
  ring

/-- Numbers of a common exponent. -/
theorem binary_of_multiple {p : Nat} {emin e k : Int} (he : emin ≤ e) (hk : |(k : ℚ) * (2 : ℚ) ^ e| ≤ 2 ^ p * (2 : ℚ) ^ e) : (k : ℚ) * (2 : ℚ) ^ e ∈ binary p emin := by
  refine ⟨k, e, rfl, ?_, he⟩
  rw [abs_mul, abs_of_pos (show (0 : ℚ) < 2 ^ e by positivity)] at hk
  have := le_of_mul_le_mul_right hk (by positivity)
  exact_mod_cast this

/-- **C123** (Sterbenz) If one number is between half and twice the other, their difference exists in the format. -/
theorem C123_difference {p : Nat} {emin : Int} {x y : ℚ} (hx : x ∈ binary p emin) (hy : y ∈ binary p emin) (h1 : y / 2 ≤ x) (h2 : x ≤ 2 * y) :
    x - y ∈ binary p emin := by
  obtain ⟨m, e, rfl, hm, he⟩ := hx
  obtain ⟨n, f, rfl, hn, hf⟩ := hy
  have hm' : (m : ℚ) ≤ 2 ^ p := by
    have := (abs_le.1 hm).2
    exact_mod_cast this
  have hn' : (n : ℚ) ≤ 2 ^ p := by
    have := (abs_le.1 hn).2
    exact_mod_cast this
  have hpe : (0 : ℚ) < 2 ^ e := by positivity
  have hpf : (0 : ℚ) < 2 ^ f := by positivity
  have em := mul_le_mul_of_nonneg_right hm' hpe.le
  have en := mul_le_mul_of_nonneg_right hn' hpf.le
  rcases le_total e f with hef | hef
  · have : (m : ℚ) * 2 ^ e - n * 2 ^ f = ((m - n * 2 ^ (f - e).toNat : Int) : ℚ) * 2 ^ e := by
      push_cast
      rw [sub_mul, mul_assoc, ← zpow_natCast, Int.toNat_of_nonneg (by omega), ← zpow_add₀ (by norm_num)]
      congr 3
      ring
    rw [this]
    apply binary_of_multiple he
    rw [← this, abs_le]
    constructor <;> linarith
  · have : (m : ℚ) * 2 ^ e - n * 2 ^ f = ((m * 2 ^ (e - f).toNat - n : Int) : ℚ) * 2 ^ f := by
      push_cast
      rw [sub_mul, mul_assoc, ← zpow_natCast, Int.toNat_of_nonneg (by omega), ← zpow_add₀ (by norm_num)]
      congr 3
      ring
    rw [this]
    apply binary_of_multiple hf
    rw [← this, abs_le]
    constructor <;> linarith

theorem binary_dense (p : Nat) (emin : Int) (x : ℚ) :
    ∃ f ∈ binary p emin, |f - x| ≤ (2 : ℚ) ^ (-(p : Int)) * |x| ∨ f ∈ binary p emin ∧ |f - x| ≤ (2 : ℚ) ^ (emin - 1) ∧ |x| < 2 ^ p * (2 : ℚ) ^ emin := by
  by_cases hx0 : x = 0
  · subst hx0
    exact ⟨0, ⟨0, emin, by simp, by simp, le_refl _⟩, Or.inl (by simp)⟩
  · have hxp : 0 < |x| := abs_pos.2 hx0
    set L := Int.log 2 |x|
    have hL1 : (2 : ℚ) ^ L ≤ |x| := by
      have := Int.zpow_log_le_self (b := 2) (by norm_num) hxp
      exact_mod_cast this
    have hL2 : |x| < (2 : ℚ) ^ (L + 1) := by
      have := Int.lt_zpow_succ_log_self (b := 2) (by norm_num) |x|
      exact_mod_cast this
    set e := max emin (L + 1 - p) with he
    have hpe : (0 : ℚ) < 2 ^ e := by positivity
    have hb : |x| < 2 ^ p * (2 : ℚ) ^ e := by
      refine lt_of_lt_of_le hL2 ?_
      rw [← zpow_natCast, ← zpow_add₀ (by norm_num)]
      exact zpow_le_zpow_right₀ (by norm_num) (by omega)
    have hr := abs_sub_round (x / 2 ^ e)
    have herr : |(round (x / 2 ^ e) : ℚ) * 2 ^ e - x| ≤ 2 ^ e / 2 := by
      have h1 : (round (x / 2 ^ e) : ℚ) * 2 ^ e - x = -((x / 2 ^ e - round (x / 2 ^ e)) * 2 ^ e) := by
        field_simp
        ring
      rw [h1, abs_neg, abs_mul, abs_of_pos hpe]
      have := mul_le_mul_of_nonneg_right hr hpe.le
      linarith
    have hmem : (round (x / 2 ^ e) : ℚ) * 2 ^ e ∈ binary p emin := by
      refine ⟨round (x / 2 ^ e), e, rfl, ?_, le_max_left _ _⟩
      have h1 : |x / 2 ^ e| < 2 ^ p := by
        rw [abs_div, abs_of_pos hpe, div_lt_iff₀ hpe]
        exact hb
      have h2 : |(round (x / 2 ^ e) : ℚ)| < 2 ^ p + 1 := by
        have h3 := abs_add_le ((round (x / 2 ^ e) : ℚ) - x / 2 ^ e) (x / 2 ^ e)
        rw [sub_add_cancel, abs_sub_comm] at h3
        linarith
      have h3 : |round (x / 2 ^ e)| < 2 ^ p + 1 := by exact_mod_cast h2
      omega
    refine ⟨_, hmem, ?_⟩
    rcases le_total emin (L + 1 - p) with hle | hle
    · left
      refine herr.trans ?_
      have he' : e = L + 1 - p := max_eq_right hle
      have h1 : (2 : ℚ) ^ e / 2 = 2 ^ (-(p : Int)) * 2 ^ L := by
        rw [he', ← zpow_add₀ (by norm_num), show L + 1 - (p : Int) = (-(p : Int) + L) + 1 by ring, zpow_add_one₀ (by norm_num)]
        ring
      rw [h1]
      exact mul_le_mul_of_nonneg_left hL1 (by positivity)
    · right
      have he' : e = emin := max_eq_left hle
      refine ⟨hmem, herr.trans ?_, ?_⟩
      · rw [he', zpow_sub_one₀ (by norm_num)]
        exact le_of_eq (by ring)
      · rw [← he']
        exact hb

/-- **C123** The binary formats are formats: precision `2^-p`, error of underflow half the smallest number. -/
theorem C123_binary (p : Nat) (emin : Int) (hp : 1 ≤ p) (he : emin ≤ 0) : Format (binary p emin) ((2 : ℚ) ^ (-(p : Int))) ((2 : ℚ) ^ (emin - 1)) where
  zero := ⟨0, emin, by simp, by simp, le_refl _⟩
  one := ⟨1, 0, by simp, by simpa using Nat.one_le_two_pow (n := p) |> (fun h => by exact_mod_cast h), he⟩
  neg := fun _ hx => binary_neg hx
  u_nonneg := by positivity
  u_lt := by
    have : (2 : ℚ) ^ (-(p : Int)) < 2 ^ (0 : Int) := zpow_lt_zpow_right₀ (by norm_num) (by omega)
    simpa using this
  eta_nonneg := by positivity
  dense := by
    intro x
    obtain ⟨f, hf, h | h⟩ := binary_dense p emin x
    · refine ⟨f, hf, h.trans ?_⟩
      have : (0 : ℚ) < 2 ^ (emin - 1) := by positivity
      linarith
    · refine ⟨f, hf, h.2.1.trans ?_⟩
      have : (0 : ℚ) ≤ 2 ^ (-(p : Int)) * |x| := by positivity
      linarith
  dense_add := by
    intro x hx y hy
    obtain ⟨f, hf, h | h⟩ := binary_dense p emin (x + y)
    · exact ⟨f, hf, h⟩
    · obtain ⟨k, rfl⟩ := binary_multiple hx
      obtain ⟨j, rfl⟩ := binary_multiple hy
      have e : (k : ℚ) * 2 ^ emin + j * 2 ^ emin = ((k + j : Int) : ℚ) * 2 ^ emin := by
        push_cast
        ring
      refine ⟨(k : ℚ) * 2 ^ emin + j * 2 ^ emin, ?_, ?_⟩
      · rw [e]
        apply binary_of_multiple (le_refl _)
        rw [← e]
        exact h.2.2.le
      · rw [sub_self, abs_zero]
        positivity

/-- **C123** They have nearest numbers. -/
theorem C123_nearest (p : Nat) (emin : Int) : ∃ rnd, Nearest (binary p emin) rnd := by
  suffices h : ∀ x, ∃ f ∈ binary p emin, ∀ g ∈ binary p emin, |f - x| ≤ |g - x| by
    choose r hr using h
    exact ⟨r, fun x => ⟨(hr x).1, (hr x).2⟩⟩
  intro x
  have hq : (0 : ℚ) < 2 ^ emin := by positivity
  -- candidates no further away than zero
  set S : Set Int := {k | (k : ℚ) * 2 ^ emin ∈ binary p emin ∧ |(k : ℚ) * 2 ^ emin - x| ≤ |x|} with hS
  have hfin : S.Finite := by
    apply Set.Finite.subset (Set.finite_Icc (-⌈2 * |x| / 2 ^ emin⌉) ⌈2 * |x| / 2 ^ emin⌉)
    rintro k ⟨_, hk⟩
    have h1 : |(k : ℚ) * 2 ^ emin| ≤ 2 * |x| := by
      have := abs_add_le ((k : ℚ) * 2 ^ emin - x) x
      rw [sub_add_cancel] at this
      linarith
    rw [abs_mul, abs_of_pos hq, ← le_div_iff₀ hq] at h1
    have h2 := h1.trans (Int.le_ceil _)
    have h3 : |k| ≤ ⌈2 * |x| / 2 ^ emin⌉ := by exact_mod_cast h2
    exact abs_le.1 h3
  have hne : S.Nonempty := ⟨0, ⟨0, emin, by simp, by simp, le_refl _⟩, by simp⟩
  obtain ⟨k, hk, hmin⟩ := Set.exists_min_image S (fun k => |(k : ℚ) * 2 ^ emin - x|) hfin hne
  refine ⟨(k : ℚ) * 2 ^ emin, hk.1, fun g hg => ?_⟩
  obtain ⟨j, rfl⟩ := binary_multiple hg
  by_cases hj : |(j : ℚ) * 2 ^ emin - x| ≤ |x|
  · exact hmin j ⟨hg, hj⟩
  · exact hk.2.trans (not_le.1 hj).le

/-- **C123** A fine-tuned model whose entries are between half and twice those of the base (or zero where the base is) is restored bit for bit
by task arithmetic with weight one. -/
theorem C123_restored {M : Type} [DecidableEq M] {p : Nat} {emin : Int} (hp : 1 ≤ p) (he : emin ≤ 0) (A : Arith ℚ) (hN : Nearest (binary p emin) A.rnd)
    {ε : Nat → ℚ} (hS : Adds (binary p emin) A.sum ε) (consensus : Option Consensus) (isEmbed normalize : Bool) (weight : M → ℚ) (b m : M)
    (hm : m ≠ b) (hw : weight m = 1) (base x : Tensor ℚ) (hsh : x.shape = base.shape) (hbF : ∀ i, base.get i ∈ binary p emin)
    (hxF : ∀ i, x.get i ∈ binary p emin) (tensors : List (M × Tensor ℚ)) (ht : tensors = [(b, base), (m, x)] ∨ tensors = [(m, x), (b, base)]) :
    ∃ t, flGta A consensus isEmbed normalize 1 weight (fun _ d => .ok d) b tensors = .ok t ∧ ∀ i,
      (base.get i / 2 ≤ x.get i ∧ x.get i ≤ 2 * base.get i) ∨ (2 * base.get i ≤ x.get i ∧ x.get i ≤ base.get i / 2) ∨ base.get i = 0 ∨ x.get i = 0 →
      t.get i = x.get i := by
  obtain ⟨t, h1, _, h2⟩ := C123_one_model A (C123_binary p emin hp he) hN hS consensus isEmbed normalize weight b m hm hw base x hsh hbF hxF tensors ht
  refine ⟨t, h1, fun i hi => (h2 i).2 ?_⟩
  rcases hi with ⟨ha, hb⟩ | ⟨ha, hb⟩ | hz | hz
  · exact C123_difference (hxF i) (hbF i) ha hb
  · have := binary_neg (C123_difference (binary_neg (hxF i)) (binary_neg (hbF i)) (by linarith) (by linarith))
    rwa [show -(-x.get i - -base.get i) = x.get i - base.get i by ring] at this
  · rw [hz, sub_zero]
    exact hxF i
  · rw [hz, zero_sub]
    exact binary_neg (hbF i)

theorem nearest_absorbs {emin : Int} (he : emin ≤ -20) {rnd : ℚ → ℚ} (hN : Nearest (binary 8 emin) rnd) : rnd (1 / 2 ^ 20 - 1) = -1 := by
  obtain ⟨hmem, hmin⟩ := hN (1 / 2 ^ 20 - 1)
  have hone : (-1 : ℚ) ∈ binary 8 emin := ⟨-1, 0, by simp, by norm_num, by omega⟩
  have h := hmin (-1) hone
  have hb : |(-1 : ℚ) - (1 / 2 ^ 20 - 1)| = 1 / 2 ^ 20 := by norm_num
  rw [hb, abs_le] at h
  obtain ⟨m, e, hf, hm, _⟩ := hmem
  by_contra hne
  set f := rnd (1 / 2 ^ 20 - 1)
  have hlo : -1 ≤ f := by linarith [h.1]
  have hlt : -1 < f := lt_of_le_of_ne hlo (Ne.symm hne)
  have hhi : f ≤ -1 + 1 / 2 ^ 19 := by
    have := h.2
    norm_num at this ⊢
    linarith
  rcases le_or_gt (-8) e with h8 | h8
  · have hk : f = ((m * 2 ^ (e + 8).toNat : Int) : ℚ) * (2 : ℚ) ^ (-8 : Int) := by
      rw [hf]
      push_cast
      rw [mul_assoc, ← zpow_natCast, Int.toNat_of_nonneg (by omega), ← zpow_add₀ (by norm_num)]
      congr 2
      ring
    set k := m * 2 ^ (e + 8).toNat
    rw [hk] at hlt hhi
    norm_num at hlt hhi
    have h1 : (-256 : ℚ) < k := by linarith
    have h2 : (k : ℚ) < -255 := by linarith
    have h1' : (-256 : Int) < k := by exact_mod_cast h1
    have h2' : k < (-255 : Int) := by exact_mod_cast h2
    omega
  · have h1 : |f| ≤ 2 ^ 8 * (2 : ℚ) ^ (-9 : Int) := by
      rw [hf, abs_mul, abs_of_pos (show (0 : ℚ) < 2 ^ e by positivity)]
      have hm' : |(m : ℚ)| ≤ 2 ^ 8 := by exact_mod_cast hm
      exact mul_le_mul hm' (zpow_le_zpow_right₀ (by norm_num) (by omega)) (by positivity) (by norm_num)
    norm_num at h1
    have := (abs_le.1 h1).1
    norm_num at this hhi
    linarith

/-- **C123** Otherwise the model is not restored: in bfloat16 an entry of 2^-20 over a base entry of 1 becomes zero, with weight one and nothing
else merged. -/
theorem C123_absorbed {M : Type} [DecidableEq M] {emin : Int} (he : emin ≤ -20) (A : Arith ℚ) (hN : Nearest (binary 8 emin) A.rnd)
    {ε : Nat → ℚ} (hS : Adds (binary 8 emin) A.sum ε) (weight : M → ℚ) (b m : M) (hm : m ≠ b) (hw : weight m = 1) :
    let base : Tensor ℚ := ⟨[1], fun _ => 1⟩
    let x : Tensor ℚ := ⟨[1], fun _ => 1 / 2 ^ 20⟩
    x.get 0 ∈ binary 8 emin ∧ ∃ t, flGta A none false false 1 weight (fun _ d => .ok d) b [(b, base), (m, x)] = .ok t ∧ t.get 0 = 0 ∧ x.get 0 ≠ 0 := by
  intro base x
  have hF := C123_binary 8 emin (by norm_num) (by omega)
  refine ⟨⟨1, -20, by norm_num [x], by norm_num, he⟩, _, one_model A hF hN hS none false false weight b m hm hw base x rfl _ (Or.inl rfl), ?_, ?_⟩
  · show A.rnd (1 + A.rnd (1 / 2 ^ 20 - 1)) = 0
    rw [nearest_absorbs he hN, show (1 : ℚ) + -1 = 0 by norm_num, hN.fixed hF.zero]
  · norm_num [x]

/-- The data types of models satisfy all conditions. -/
example (p : Nat) (emin : Int) (hp : 1 ≤ p) (he : emin ≤ 0) : ∃ (A : Arith ℚ) (u η : ℚ) (ε : Nat → ℚ), Format (binary p emin) u η ∧
    Nearest (binary p emin) A.rnd ∧ Adds (binary p emin) A.sum ε ∧ ∀ n, 0 ≤ ε n := by
  obtain ⟨rnd, hN⟩ := C123_nearest p emin
  have hF := C123_binary p emin hp he
  refine ⟨⟨rnd, seqSum rnd⟩, _, _, _, hF, hN, seqSum_adds hN hF, fun n => ?_⟩
  have : (1 : ℚ) ≤ (1 + 2 ^ (-(p : Int))) ^ (n - 1) := one_le_pow₀ (by have := hF.u_nonneg; linarith)
  linarith

/-- The conditions of `C123_linear` for a merge in bfloat16 of two models with weights 1 and 2, added one after the other. -/
example (x y : Nat → ℚ) : ∃ rnd, Nearest (binary 8 (-133)) rnd ∧ ∃ t,
    flLinear ⟨rnd, seqSum rnd⟩ false true (fun m : Nat => (m : ℚ)) [(1, ⟨[4], x⟩), (2, ⟨[4], y⟩)] = .ok t ∧ t.shape = [4] := by
  obtain ⟨rnd, hN⟩ := C123_nearest 8 (-133)
  have hF := C123_binary 8 (-133) (by norm_num) (by norm_num)
  have h1 : rnd 1 = 1 := hN.fixed hF.one
  have h2 : rnd 2 = 2 := hN.fixed ⟨1, 1, by norm_num, by norm_num, by norm_num⟩
  obtain ⟨t, ht, hs, _⟩ := C123_linear ⟨rnd, seqSum rnd⟩ hF hN (seqSum_adds hN hF) false (fun m : Nat => (m : ℚ))
    [(1, ⟨[4], x⟩), (2, ⟨[4], y⟩)] [4] (by simp) (by simp) (by simp [h1, h2]; norm_num) (by norm_num) (by norm_num)
  exact ⟨rnd, hN, t, ht, hs⟩

/-- `C123_absorbed` in bfloat16. -/
example : ∃ rnd, Nearest (binary 8 (-133)) rnd ∧ ∃ t, flGta ⟨rnd, seqSum rnd⟩ none false false 1 (fun _ : Nat => (1 : ℚ)) (fun _ d => .ok d) 0
    [(0, ⟨[1], fun _ => 1⟩), (1, ⟨[1], fun _ => 1 / 2 ^ 20⟩)] = .ok t ∧ t.get 0 = 0 := by
  obtain ⟨rnd, hN⟩ := C123_nearest 8 (-133)
  have hF := C123_binary 8 (-133) (by norm_num) (by norm_num)
  obtain ⟨_, t, h, h0, _⟩ := C123_absorbed (by norm_num) ⟨rnd, seqSum rnd⟩ hN (seqSum_adds hN hF) (fun _ : Nat => (1 : ℚ)) 0 1 (by norm_num) rfl
  exact ⟨rnd, hN, t, h, h0⟩

end Verif.Rounding

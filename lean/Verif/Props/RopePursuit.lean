import Verif.Props.Rope
import Verif.Props.Omp
import Verif.Props.Landmarks

/-! # Matching pursuit with rotary positions (C96) -/

namespace Verif.Rope

open Finset

/-! ## What is assumed of the libraries -/

/-- The coefficients returned make the combination of the columns (vectors of `n` entries) as near to the target as any do. -/
def IsLstsq (n : Nat) (lstsq : Nat → (Nat → Nat → ℝ) → (Nat → ℝ) → Nat → ℝ) : Prop :=
  ∀ (k : Nat) (columns : Nat → Nat → ℝ) (target c : Nat → ℝ), dist2 n (fun l => ∑ t ∈ range k, lstsq k columns target t * columns t l) target ≤
    dist2 n (fun l => ∑ t ∈ range k, c t * columns t l) target

/-- There are such library functions. -/
theorem exists_oracle (n count : Nat) : ∃ o : Oracle, Omp.IsArgmax count o.argmax ∧ IsLstsq n o.lstsq := by
  classical
  obtain ⟨ol, _, hl⟩ := Landmarks.oracle_exists
  have harg : ∀ f : Nat → WithBot ℝ, ∃ i, 0 < count → i < count ∧ ∀ j < count, f j ≤ f i := by
    intro f
    by_cases hc : 0 < count
    · obtain ⟨i, hi, hm⟩ := exists_max_image (range count) f ⟨0, mem_range.mpr hc⟩
      exact ⟨i, fun _ => ⟨mem_range.mp hi, fun j hj => hm j (mem_range.mpr hj)⟩⟩
    · exact ⟨0, fun h => absurd h hc⟩
  choose am ham using harg
  refine ⟨{ argmax := am, lstsq := fun k columns target t =>
    if h : t < k then ol.lstsq (fun (i : Fin n) (j : Fin k) => columns j i) (fun i : Fin n => target i) ⟨t, h⟩ else 0 }, fun hc f => ham f hc, ?_⟩
  intro k columns target c
  have := hl (fun (i : Fin n) (j : Fin k) => columns j i) (fun i : Fin n => target i) (fun j : Fin k => c j)
  unfold dist2
  rw [← Fin.sum_univ_eq_sum_range (fun i => ((∑ t ∈ range k, c t * columns t i) - target i) ^ 2)]
  rw [← Fin.sum_univ_eq_sum_range (fun i => ((∑ t ∈ range k, (if h : t < k then
    ol.lstsq (fun (i : Fin n) (j : Fin k) => columns j i) (fun i : Fin n => target i) ⟨t, h⟩ else 0) * columns t i) - target i) ^ 2)]
  refine le_trans (le_of_eq ?_) (this.trans (le_of_eq ?_))
  · refine sum_congr rfl fun i _ => ?_
    congr 2
    rw [← Fin.sum_univ_eq_sum_range (fun t => (if h : t < k then
      ol.lstsq (fun (i : Fin n) (j : Fin k) => columns j i) (fun i : Fin n => target i) ⟨t, h⟩ else 0) * columns t i)]
    refine sum_congr rfl fun j _ => ?_
    rw [dif_pos j.2, mul_comm]
  · refine sum_congr rfl fun i _ => ?_
    congr 2
    rw [← Fin.sum_univ_eq_sum_range (fun t => c t * columns t i)]
    exact sum_congr rfl fun j _ => mul_comm _ _

/-! ## Failure -/

theorem check_ok {s : Space} (h : s.check = .ok ()) : 0 < s.heads ∧ fits s.heads s.dim s.n = true := by
  unfold Space.check at h
  split at h
  · cases h
  · split at h
    · exact ⟨by omega, by assumption⟩
    · cases h

/-- A space can be used: there are heads, they divide the entries, and each has an even number of entries. -/
def Usable (s : Space) : Prop := 0 < s.heads ∧ s.heads ∣ s.n ∧ 2 ∣ s.n / s.heads

theorem check_iff (s : Space) : s.check = .ok () ↔ Usable s := by
  unfold Usable
  constructor
  · intro h
    obtain ⟨h0, h1⟩ := check_ok h
    unfold fits Space.dim at h1
    simp only [Bool.and_eq_true, decide_eq_true_eq] at h1
    exact ⟨h0, ⟨_, h1.1⟩, Nat.dvd_of_mod_eq_zero h1.2⟩
  · rintro ⟨h0, h1, h2⟩
    unfold Space.check fits Space.dim
    rw [if_neg (by omega), if_pos]
    simp only [Bool.and_eq_true, decide_eq_true_eq]
    exact ⟨(Nat.mul_div_cancel' h1).symm, Nat.mod_eq_zero_of_dvd h2⟩

/-- C96: the pursuit is refused exactly when more points are asked for than there are, or a model has no heads, or heads that do not divide its
vectors into parts of an even size. -/
theorem C96_refused (o : Oracle) (a b : Space) (eps : ℝ) (final : Bool) (count : Nat) (pa pb : Nat → Nat → ℝ) (target : Nat → ℝ) (k : Nat) :
    (∃ r, pursue o a b eps final count pa pb target k = .ok r) ↔ k ≤ count ∧ Usable a ∧ Usable b := by
  unfold pursue
  by_cases hk : count < k
  · rw [if_pos hk]
    exact ⟨fun h => (by obtain ⟨_, h⟩ := h; cases h), fun h => absurd h.1 (by omega)⟩
  · rw [if_neg hk, ← check_iff, ← check_iff]
    cases ha : a.check with
    | error e => exact ⟨fun h => (by obtain ⟨_, h⟩ := h; cases h), fun h => (by cases h.2.1)⟩
    | ok _ =>
      cases hb : b.check with
      | error e => exact ⟨fun h => (by obtain ⟨_, h⟩ := h; cases h), fun h => (by cases h.2.2)⟩
      | ok _ => exact ⟨fun _ => ⟨by omega, rfl, rfl⟩, fun _ => ⟨_, rfl⟩⟩

/-- What a success says. -/
theorem pursue_ok {o : Oracle} {a b : Space} {eps : ℝ} {final : Bool} {count : Nat} {pa pb : Nat → Nat → ℝ} {target : Nat → ℝ} {k : Nat} {r : Result}
    (h : pursue o a b eps final count pa pb target k = .ok r) :
    k ≤ count ∧ 0 < a.heads ∧ fits a.heads a.dim a.n = true ∧ 0 < b.heads ∧ fits b.heads b.dim b.n = true ∧
    r = { selected := (loop o a eps pa target k).selected
          coeffs := finalCoeffs o a final pa target k (loop o a eps pa target k)
          result := fun l => ∑ t ∈ range k, finalCoeffs o a final pa target k (loop o a eps pa target k) t * atoms b pb (loop o a eps pa target k) t l
          inDonor := fun l => target l - (loop o a eps pa target k).residual l } := by
  obtain ⟨hk, ha, hb⟩ := (C96_refused o a b eps final count pa pb target k).mp ⟨r, h⟩
  have ha' := (check_iff a).mpr ha
  have hb' := (check_iff b).mpr hb
  unfold pursue at h
  rw [if_neg (by omega), ha', hb'] at h
  refine ⟨hk, (check_ok ha').1, (check_ok ha').2, (check_ok hb').1, (check_ok hb').2, ?_⟩
  cases h
  rfl

/-! ## The choice of points -/

theorem loop_selected (o : Oracle) (sp : Space) (eps : ℝ) (points : Nat → Nat → ℝ) (target : Nat → ℝ) (t i : Nat) :
    (loop o sp eps points target (t + 1)).selected i =
      if i = t then o.argmax (score sp.n points (loop o sp eps points target t)) else (loop o sp eps points target t).selected i := rfl

theorem selection {o : Oracle} {sp : Space} {eps : ℝ} {count : Nat} (ho : Omp.IsArgmax count o.argmax) (points : Nat → Nat → ℝ) (target : Nat → ℝ)
    (t : Nat) (ht : t ≤ count) :
    (∀ i < t, (loop o sp eps points target t).selected i < count) ∧
    (∀ m, (loop o sp eps points target t).mask m = true ↔ ∃ i < t, (loop o sp eps points target t).selected i = m) ∧
    (∀ i < t, ∀ j < t, (loop o sp eps points target t).selected i = (loop o sp eps points target t).selected j → i = j) := by
  induction t with
  | zero => simp [loop, start]
  | succ t ih =>
    obtain ⟨h1, h2, h3⟩ := ih (by omega)
    obtain ⟨ha, hb⟩ := ho (by omega) (score sp.n points (loop o sp eps points target t))
    have hnew : (loop o sp eps points target t).mask (o.argmax (score sp.n points (loop o sp eps points target t))) = false := by
      by_contra hm
      rw [Bool.not_eq_false] at hm
      have hall : ∀ m < count, (loop o sp eps points target t).mask m = true := by
        intro m hm'
        by_contra hm2
        have := hb m hm'
        have e1 : score sp.n points (loop o sp eps points target t) m =
            ((|dot sp.n (loop o sp eps points target t).residual (points m)| : ℝ) : WithBot ℝ) := if_neg hm2
        have e2 : score sp.n points (loop o sp eps points target t) (o.argmax (score sp.n points (loop o sp eps points target t))) = ⊥ := if_pos hm
        rw [e1, e2] at this
        exact absurd this (by simp)
      have hsub : Finset.range count ⊆ (Finset.range t).image (loop o sp eps points target t).selected := by
        intro m hm'
        obtain ⟨i, hi, he⟩ := (h2 m).mp (hall m (Finset.mem_range.mp hm'))
        exact Finset.mem_image.mpr ⟨i, Finset.mem_range.mpr hi, he⟩
      have := (Finset.card_le_card hsub).trans Finset.card_image_le
      simp only [Finset.card_range] at this
      omega
    have hne : ∀ i < t, (loop o sp eps points target t).selected i ≠ o.argmax (score sp.n points (loop o sp eps points target t)) := by
      intro i hi he
      rw [(h2 _).mpr ⟨i, hi, he⟩] at hnew; cases hnew
    have hs := loop_selected o sp eps points target t
    refine ⟨?_, ?_, ?_⟩
    · intro i hi
      rw [hs]
      split
      · exact ha
      · exact h1 i (by omega)
    · intro m
      have hm : (loop o sp eps points target (t + 1)).mask m =
          if m = o.argmax (score sp.n points (loop o sp eps points target t)) then true else (loop o sp eps points target t).mask m := rfl
      rw [hm]
      constructor
      · intro h
        split at h
        · rename_i he
          exact ⟨t, by omega, by rw [hs, if_pos rfl, he]⟩
        · obtain ⟨i, hi, he⟩ := (h2 m).mp h
          exact ⟨i, by omega, by rw [hs, if_neg (by omega), he]⟩
      · rintro ⟨i, hi, he⟩
        rw [hs] at he
        split at he
        · rw [if_pos he.symm]
        · split
          · rfl
          · exact (h2 m).mpr ⟨i, by omega, he⟩
    · intro i hi j hj he
      rw [hs, hs] at he
      split at he
      · split at he
        · omega
        · exact absurd he.symm (hne j (by omega))
      · split at he
        · exact absurd he (hne i (by omega))
        · exact h3 i (by omega) j (by omega) he

/-- C96: the points used are different candidates. -/
theorem C96_distinct {o : Oracle} {a b : Space} {eps : ℝ} {final : Bool} {count : Nat} (ho : Omp.IsArgmax count o.argmax) {pa pb : Nat → Nat → ℝ}
    {target : Nat → ℝ} {k : Nat} {r : Result} (h : pursue o a b eps final count pa pb target k = .ok r) :
    (∀ i < k, r.selected i < count) ∧ ∀ i < k, ∀ j < k, r.selected i = r.selected j → i = j := by
  obtain ⟨hk, _, _, _, _, rfl⟩ := pursue_ok h
  obtain ⟨h1, _, h3⟩ := selection (sp := a) (eps := eps) ho pa target k hk
  exact ⟨h1, h3⟩

/-! ## The approximation -/

theorem loop_residual (o : Oracle) (sp : Space) (eps : ℝ) (points : Nat → Nat → ℝ) (target : Nat → ℝ) (t l : Nat) :
    (loop o sp eps points target (t + 1)).residual l = (loop o sp eps points target t).residual l -
      coefficient sp.n eps (loop o sp eps points target t).residual
        (turned sp (points (o.argmax (score sp.n points (loop o sp eps points target t)))) (loop o sp eps points target t).residual) *
      turned sp (points (o.argmax (score sp.n points (loop o sp eps points target t)))) (loop o sp eps points target t).residual l := rfl

theorem loop_coeffs (o : Oracle) (sp : Space) (eps : ℝ) (points : Nat → Nat → ℝ) (target : Nat → ℝ) (t i : Nat) :
    (loop o sp eps points target (t + 1)).coeffs i = if i = t then coefficient sp.n eps (loop o sp eps points target t).residual
        (turned sp (points (o.argmax (score sp.n points (loop o sp eps points target t)))) (loop o sp eps points target t).residual)
      else (loop o sp eps points target t).coeffs i := rfl

theorem loop_atoms (o : Oracle) (sp : Space) (eps : ℝ) (points : Nat → Nat → ℝ) (target : Nat → ℝ) (t i : Nat) :
    atoms sp points (loop o sp eps points target (t + 1)) i =
      if i = t then turned sp (points (o.argmax (score sp.n points (loop o sp eps points target t)))) (loop o sp eps points target t).residual
      else atoms sp points (loop o sp eps points target t) i := by
  unfold atoms
  rw [loop_selected]
  have : (loop o sp eps points target (t + 1)).pos i = if i = t then
      choosePosition sp (points (o.argmax (score sp.n points (loop o sp eps points target t)))) (loop o sp eps points target t).residual
      else (loop o sp eps points target t).pos i := rfl
  rw [this]
  split
  · rfl
  · rfl

/-- What has been taken off the target is the combination found so far. -/
theorem loop_sum (o : Oracle) (sp : Space) (eps : ℝ) (points : Nat → Nat → ℝ) (target : Nat → ℝ) (k l : Nat) :
    target l - (loop o sp eps points target k).residual l =
      ∑ t ∈ range k, (loop o sp eps points target k).coeffs t * atoms sp points (loop o sp eps points target k) t l := by
  induction k with
  | zero => simp [loop, start]
  | succ k ih =>
    rw [sum_range_succ, loop_residual, loop_coeffs, if_pos rfl, loop_atoms, if_pos rfl]
    have : ∑ t ∈ range k, (loop o sp eps points target (k + 1)).coeffs t * atoms sp points (loop o sp eps points target (k + 1)) t l =
        ∑ t ∈ range k, (loop o sp eps points target k).coeffs t * atoms sp points (loop o sp eps points target k) t l := by
      refine sum_congr rfl fun t ht => ?_
      have := mem_range.mp ht
      rw [loop_coeffs, if_neg (by omega), loop_atoms, if_neg (by omega)]
    rw [this, ← ih]
    ring

/-- Taking a multiple of a vector off does not make a residual longer. -/
theorem residual_shrinks (n : Nat) {eps : ℝ} (he : 0 < eps) (r v : Nat → ℝ) :
    dot n (fun l => r l - coefficient n eps r v * v l) (fun l => r l - coefficient n eps r v * v l) ≤ dot n r r := by
  have expand : ∀ c : ℝ, dot n (fun l => r l - c * v l) (fun l => r l - c * v l) = dot n r r - 2 * c * dot n r v + c ^ 2 * dot n v v := by
    intro c
    unfold dot
    rw [mul_sum, mul_sum, ← sum_sub_distrib, ← sum_add_distrib]
    exact sum_congr rfl fun i _ => by ring
  rw [expand]
  unfold coefficient
  set m := max (dot n v v) eps
  have hm : 0 < m := lt_of_lt_of_le he (le_max_right _ _)
  have hv : dot n v v ≤ m := le_max_left _ _
  have h1 : dot n r v = dot n r v / m * m := by rw [div_mul_cancel₀ _ hm.ne']
  set c := dot n r v / m
  rw [h1]
  nlinarith [mul_nonneg (sq_nonneg c) hm.le, mul_le_mul_of_nonneg_left hv (sq_nonneg c)]

theorem residual_le (o : Oracle) (sp : Space) {eps : ℝ} (he : 0 < eps) (points : Nat → Nat → ℝ) (target : Nat → ℝ) {k k' : Nat} (hk : k ≤ k') :
    dot sp.n (loop o sp eps points target k').residual (loop o sp eps points target k').residual ≤
      dot sp.n (loop o sp eps points target k).residual (loop o sp eps points target k).residual := by
  induction k', hk using Nat.le_induction with
  | base => exact le_refl _
  | succ m _ ih => exact (residual_shrinks sp.n he _ _).trans ih

theorem dist2_inDonor (n : Nat) (target r : Nat → ℝ) : dist2 n (fun l => target l - r l) target = dot n r r := by
  unfold dist2 dot
  exact sum_congr rfl fun i _ => by ring

/-- C96: more rounds never give a worse approximation in the space of the target, and the approximation is never worse than nothing at all. -/
theorem C96_improves {o : Oracle} {a b : Space} {eps : ℝ} (he : 0 < eps) {final : Bool} {count : Nat} {pa pb : Nat → Nat → ℝ} {target : Nat → ℝ}
    {k k' : Nat} {r r' : Result} (h : pursue o a b eps final count pa pb target k = .ok r) (h' : pursue o a b eps final count pa pb target k' = .ok r')
    (hk : k ≤ k') :
    dist2 a.n r'.inDonor target ≤ dist2 a.n r.inDonor target ∧ dist2 a.n r.inDonor target ≤ dist2 a.n (fun _ => 0) target := by
  obtain ⟨_, _, _, _, _, rfl⟩ := pursue_ok h
  obtain ⟨_, _, _, _, _, rfl⟩ := pursue_ok h'
  simp only [dist2_inDonor]
  refine ⟨residual_le o a he pa target hk, ?_⟩
  have h0 := residual_le o a he pa target (Nat.zero_le k)
  have e : dist2 a.n (fun _ => 0) target = dot a.n target target := by
    unfold dist2 dot
    exact sum_congr rfl fun i _ => by ring
  rw [e]
  exact h0

/-- C96: the result is a combination of the points of the other model, each at a position of its own.  In the space of the target, the same points at the
same positions and with the same coefficients are (with the final least squares) as near to the target as any coefficients make them, in particular at
least as near as what the pursuit reached; without the final least squares they are just what the pursuit reached. -/
theorem C96_combination {o : Oracle} {a b : Space} {eps : ℝ} {final : Bool} {count : Nat} (ho : IsLstsq a.n o.lstsq) {pa pb : Nat → Nat → ℝ}
    {target : Nat → ℝ} {k : Nat} {r : Result} (h : pursue o a b eps final count pa pb target k = .ok r) :
    ∃ pos : Nat → ℝ,
      (∀ l, r.result l = ∑ t ∈ range k, r.coeffs t * rope (b.n / b.heads) b.base (pos t) (pb (r.selected t)) l) ∧
      (final = false → ∀ l, r.inDonor l = ∑ t ∈ range k, r.coeffs t * rope (a.n / a.heads) a.base (pos t) (pa (r.selected t)) l) ∧
      (final = true → ∀ c : Nat → ℝ,
        dist2 a.n (fun l => ∑ t ∈ range k, r.coeffs t * rope (a.n / a.heads) a.base (pos t) (pa (r.selected t)) l) target ≤
          dist2 a.n (fun l => ∑ t ∈ range k, c t * rope (a.n / a.heads) a.base (pos t) (pa (r.selected t)) l) target) ∧
      dist2 a.n (fun l => ∑ t ∈ range k, r.coeffs t * rope (a.n / a.heads) a.base (pos t) (pa (r.selected t)) l) target ≤ dist2 a.n r.inDonor target := by
  obtain ⟨_, _, _, _, _, rfl⟩ := pursue_ok h
  refine ⟨(loop o a eps pa target k).pos, fun l => rfl, ?_, ?_, ?_⟩
  · intro hf l
    subst hf
    exact loop_sum o a eps pa target k l
  · intro hf c
    subst hf
    exact ho k (atoms a pa (loop o a eps pa target k)) target c
  · have e : (fun l => target l - (loop o a eps pa target k).residual l) =
        fun l => ∑ t ∈ range k, (loop o a eps pa target k).coeffs t * atoms a pa (loop o a eps pa target k) t l := by
      funext l; exact loop_sum o a eps pa target k l
    cases final with
    | true =>
      show dist2 a.n _ target ≤ dist2 a.n (fun l => target l - (loop o a eps pa target k).residual l) target
      rw [e]
      exact ho k (atoms a pa (loop o a eps pa target k)) target _
    | false =>
      show dist2 a.n _ target ≤ dist2 a.n (fun l => target l - (loop o a eps pa target k).residual l) target
      rw [e]
      exact le_refl _

/-- C96: when both models have the same points, heads and base, the result is at least as near to the target as what the pursuit reached, and so never
further from it than zero is. -/
theorem C96_same_space {o : Oracle} {a : Space} {eps : ℝ} (he : 0 < eps) {final : Bool} {count : Nat} (ho : IsLstsq a.n o.lstsq) {pa : Nat → Nat → ℝ}
    {target : Nat → ℝ} {k : Nat} {r : Result} (h : pursue o a a eps final count pa pa target k = .ok r) :
    dist2 a.n r.result target ≤ dist2 a.n r.inDonor target ∧ dist2 a.n r.result target ≤ dist2 a.n (fun _ => 0) target := by
  obtain ⟨pos, h1, _, _, h4⟩ := C96_combination ho h
  have e : r.result = fun l => ∑ t ∈ range k, r.coeffs t * rope (a.n / a.heads) a.base (pos t) (pa (r.selected t)) l := by funext l; exact h1 l
  rw [← e] at h4
  exact ⟨h4, h4.trans (C96_improves he h h (le_refl k)).2⟩

/-! ## A target that is a multiple of a point -/

theorem position_multiple {sp : Space} {atom residual : Nat → ℝ} {c : ℝ} (hf : fits sp.heads sp.dim sp.n = true)
    (hr : ∀ i < sp.n, residual i = c * atom i) (hc : 0 ≤ c) : bestPosition sp.heads sp.dim sp.base atom residual = 0 := by
  unfold bestPosition
  rw [projectPosition_eq]
  have hf' := hf
  unfold fits at hf'
  simp only [Bool.and_eq_true, decide_eq_true_eq] at hf'
  have : ∀ h < sp.heads, ∀ j < sp.dim / 2, estimateTheta sp.dim atom residual h j = 0 := by
    intro h hh j hj
    have hin : ∀ l < sp.dim, h * sp.dim + l < sp.n := by
      intro l hl
      rw [hf'.1]
      calc h * sp.dim + l < h * sp.dim + sp.dim := by omega
        _ = (h + 1) * sp.dim := by ring
        _ ≤ sp.heads * sp.dim := Nat.mul_le_mul_right _ hh
    rw [estimateTheta_eq]
    have e : (starRingEnd ℂ) (pair sp.dim atom h j) * pair sp.dim residual h j = ((c * Complex.normSq (pair sp.dim atom h j) : ℝ) : ℂ) := by
      rw [Complex.ofReal_mul, Complex.normSq_eq_conj_mul_self]
      have : pair sp.dim residual h j = c * pair sp.dim atom h j := by
        unfold pair
        rw [hr _ (hin _ (by omega)), hr _ (hin _ (by omega))]
        apply Complex.ext <;> simp
      rw [this]; ring
    rw [e]
    exact Complex.arg_ofReal_of_nonneg (mul_nonneg hc (Complex.normSq_nonneg _))
  rw [sum_eq_zero, zero_div]
  intro h hh
  apply sum_eq_zero
  intro j hj
  rw [this h (mem_range.mp hh) j (mem_range.mp hj), zero_mul]

theorem choosePosition_multiple {sp : Space} {atom residual : Nat → ℝ} {c : ℝ} (hf : fits sp.heads sp.dim sp.n = true)
    (hr : ∀ i < sp.n, residual i = c * atom i) : choosePosition sp atom residual = 0 := by
  unfold choosePosition
  by_cases hc : 0 ≤ c
  · have h0 := position_multiple hf hr hc
    rw [h0]
    split
    · rfl
    · rename_i hn
      rw [abs_zero, not_lt] at hn
      exact abs_eq_zero.mp (le_antisymm hn (abs_nonneg _))
  · have h0 : bestPosition sp.heads sp.dim sp.base atom (fun i => -residual i) = 0 := by
      apply position_multiple (c := -c) hf _ (by linarith)
      intro i hi
      rw [hr i hi]; ring
    rw [h0, abs_zero, if_neg (not_lt.mpr (abs_nonneg _))]

/-- C96: when the target is a multiple of a candidate, no other candidate has a product of that size with the target, and the candidate is not tiny, one
round finds it: the result is the same multiple of the same token of the other model, not turned. -/
theorem C96_exact {o : Oracle} {a b : Space} {eps : ℝ} (he : 0 < eps) {final : Bool} {count : Nat} (hm : Omp.IsArgmax count o.argmax)
    (ho : IsLstsq a.n o.lstsq) {pa pb : Nat → Nat → ℝ} {target : Nat → ℝ} {r : Result} (h : pursue o a b eps final count pa pb target 1 = .ok r)
    {m : Nat} (hmc : m < count) {c : ℝ} (ht : ∀ i < a.n, target i = c * pa m i) (hbig : eps ≤ dot a.n (pa m) (pa m))
    (hbest : ∀ i < count, i ≠ m → |dot a.n target (pa i)| < |dot a.n target (pa m)|) :
    r.selected 0 = m ∧ r.coeffs 0 = c ∧ (∀ l < b.n, r.result l = c * pb m l) ∧ ∀ l < a.n, r.inDonor l = target l := by
  obtain ⟨_, ha, hfa, hb, hfb, rfl⟩ := pursue_ok h
  have hscore : ∀ i, score a.n pa (start target) i = ((|dot a.n target (pa i)| : ℝ) : WithBot ℝ) := fun i => rfl
  have hsel : o.argmax (score a.n pa (start target)) = m := by
    obtain ⟨h1, h2⟩ := hm (by omega) (score a.n pa (start target))
    by_contra hne
    have := hbest _ h1 hne
    have h3 := h2 m hmc
    rw [hscore, hscore, WithBot.coe_le_coe] at h3
    linarith
  have hsel' : (loop o a eps pa target 1).selected 0 = m := hsel
  have hpos : choosePosition a (pa m) target = 0 := choosePosition_multiple hfa ht
  have hpos' : (loop o a eps pa target 1).pos 0 = 0 := by
    show choosePosition a (pa (o.argmax (score a.n pa (start target)))) target = 0
    rw [hsel]; exact hpos
  have hrope : ∀ (s : Space), fits s.heads s.dim s.n = true → ∀ x, ∀ l < s.n, s.rope 0 x l = x l :=
    fun s hs x l hl => (C94_positions hs s.base 0 0 x l hl).2
  have hatom : ∀ l < a.n, atoms a pa (loop o a eps pa target 1) 0 l = pa m l := by
    intro l hl
    unfold atoms
    rw [hsel', hpos']
    exact hrope a hfa _ l hl
  have hgreedy : (loop o a eps pa target 1).coeffs 0 = c := by
    show coefficient a.n eps target (turned a (pa (o.argmax (score a.n pa (start target)))) target) = c
    rw [hsel]
    have e : turned a (pa m) target = a.rope 0 (pa m) := by unfold turned; rw [hpos]
    rw [e]
    unfold coefficient
    have e1 : dot a.n target (a.rope 0 (pa m)) = c * dot a.n (pa m) (pa m) := by
      unfold dot
      rw [mul_sum]
      refine sum_congr rfl fun i hi => ?_
      rw [hrope a hfa _ i (mem_range.mp hi), ht i (mem_range.mp hi)]; ring
    have e2 : dot a.n (a.rope 0 (pa m)) (a.rope 0 (pa m)) = dot a.n (pa m) (pa m) := by
      unfold dot
      exact sum_congr rfl fun i hi => by rw [hrope a hfa _ i (mem_range.mp hi)]
    rw [e1, e2, max_eq_left hbig]
    exact mul_div_cancel_right₀ _ (by linarith)
  have hfin : finalCoeffs o a final pa target 1 (loop o a eps pa target 1) 0 = c := by
    cases final with
    | false => exact hgreedy
    | true =>
      show o.lstsq 1 (atoms a pa (loop o a eps pa target 1)) target 0 = c
      set x := o.lstsq 1 (atoms a pa (loop o a eps pa target 1)) target 0 with hx
      have := ho 1 (atoms a pa (loop o a eps pa target 1)) target (fun _ => c)
      simp only [sum_range_one] at this
      rw [← hx] at this
      have e : ∀ y : ℝ, dist2 a.n (fun l => y * atoms a pa (loop o a eps pa target 1) 0 l) target = (y - c) ^ 2 * dot a.n (pa m) (pa m) := by
        intro y
        unfold dist2 dot
        rw [mul_sum]
        refine sum_congr rfl fun i hi => ?_
        have hi' := mem_range.mp hi
        simp only [hatom i hi', ht i hi']; ring
      rw [e, e, sub_self] at this
      have hp : 0 < dot a.n (pa m) (pa m) := by linarith
      have h0 : (x - c) ^ 2 = 0 := by nlinarith [sq_nonneg (x - c)]
      have := pow_eq_zero_iff (two_ne_zero) |>.mp h0
      linarith
  refine ⟨hsel', hfin, ?_, ?_⟩
  · intro l hl
    show ∑ t ∈ range 1, finalCoeffs o a final pa target 1 (loop o a eps pa target 1) t * atoms b pb (loop o a eps pa target 1) t l = c * pb m l
    rw [sum_range_one, hfin]
    congr 1
    unfold atoms
    rw [hsel', hpos']
    exact hrope b hfb _ l hl
  · intro l hl
    show target l - (loop o a eps pa target 1).residual l = target l
    rw [loop_sum, sum_range_one, hgreedy, hatom l hl, ht l hl]

/-- The hypotheses of the theorems can be met: two points of two entries, one head, and a target that is `-3` times the second point. -/
example : ∃ (o : Oracle) (r : Result), Omp.IsArgmax 2 o.argmax ∧ IsLstsq 2 o.lstsq ∧
    pursue o ⟨2, 1, 10000⟩ ⟨2, 1, 500000⟩ (1 / 10 ^ 8) true 2 (fun i l => if i = l then 1 else 0) (fun i l => if i = l then 2 else 1) (fun l => if l = 1 then -3 else 0) 1
      = .ok r ∧ r.selected 0 = 1 ∧ r.coeffs 0 = -3 ∧ r.result 1 = -6 := by
  obtain ⟨o, h1, h2⟩ := exists_oracle 2 2
  obtain ⟨r, hr⟩ := (C96_refused o ⟨2, 1, 10000⟩ ⟨2, 1, 500000⟩ (1 / 10 ^ 8) true 2 (fun i l => if i = l then 1 else 0) (fun i l => if i = l then 2 else 1)
    (fun l => if l = 1 then -3 else 0) 1).mpr ⟨by decide, ⟨by decide, by decide, by decide⟩, ⟨by decide, by decide, by decide⟩⟩
  obtain ⟨e1, e2, e3, _⟩ := C96_exact (by norm_num) h1 h2 hr (m := 1) (by decide) (c := -3) (fun i _ => by split <;> simp_all [eq_comm])
    (by unfold dot; norm_num [sum_range_succ])
    (fun i hi hn => by
      obtain rfl : i = 0 := by omega
      unfold dot
      norm_num [sum_range_succ])
  refine ⟨o, r, h1, h2, hr, e1, e2, ?_⟩
  rw [e3 1 (by decide)]
  norm_num

end Verif.Rope

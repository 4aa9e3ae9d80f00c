import Verif.Model.NewRows
import Verif.Props.TokenSurgeon
import Mathlib.Tactic.Linarith
import Mathlib.Tactic.Ring
import Mathlib.Tactic.NormNum
import Mathlib.Tactic.FieldSimp
import Mathlib.Algebra.BigOperators.Field
import Mathlib.LinearAlgebra.Dimension.Finite
import Mathlib.LinearAlgebra.FiniteDimensional.Lemmas
import Mathlib.LinearAlgebra.Dimension.Constructions

/-! # Rows for new tokens (C99) and the sparse token basis (C100) -/

namespace Verif.NewRows

open Verif.Tok (NToken get)
open Verif.Surgeon (Emb Vocab)

/-! ## Helpers -/

theorem mapM_spec {A B : Type} {f : A → Except Err B} : ∀ {as : List A} {bs : List B}, as.mapM f = .ok bs →
    bs.length = as.length ∧ ∀ (k : Nat) a, as[k]? = some a → ∃ b, f a = .ok b ∧ bs[k]? = some b
  | [], bs, h => by
    cases h
    simp
  | a :: as, bs, h => by
    rw [List.mapM_cons] at h
    cases ha : f a with
    | error e => rw [ha] at h; cases h
    | ok b =>
      rw [ha] at h
      cases hr : as.mapM f with
      | error e => rw [hr] at h; cases h
      | ok bs' =>
        rw [hr] at h
        cases h
        obtain ⟨h1, h2⟩ := mapM_spec hr
        refine ⟨by simp [h1], ?_⟩
        intro k x hk
        cases k with
        | zero => cases hk; exact ⟨b, ha, rfl⟩
        | succ k => exact h2 k x hk

theorem mem_shared {orig donor : Vocab} {t : NToken} : t ∈ shared orig donor ↔ t ∈ orig.map Prod.fst ∧ t ∈ donor.map Prod.fst := by
  unfold shared
  simp only [List.mem_map, List.mem_mergeSort, List.mem_filter, decide_eq_true_eq]
  constructor
  · rintro ⟨e, ⟨h1, e', h2, h3⟩, rfl⟩
    exact ⟨⟨e', h2, h3⟩, e, h1, rfl⟩
  · rintro ⟨⟨e', h1, h2⟩, e, h3, rfl⟩
    exact ⟨e, ⟨h3, e', h1, h2⟩, rfl⟩

/-! ## C99 -/

/-- The combination of the rows that some tokens have in a model. -/
noncomputable def blend {d : Nat} (m : Emb (Fin d → ℝ)) (v : Vocab) (c : List (NToken × ℝ)) : Fin d → ℝ := (c.map (fun e => e.2 • m.row ((get v e.1).getD 0))).sum

theorem apply_gather {d : Nat} (m : Emb (Fin d → ℝ)) (v : Vocab) (ts : List NToken) (c : List (Nat × ℝ)) (hc : ∀ e ∈ c, e.1 < ts.length) :
    apply (gather m v ts) c = blend m v (c.map (fun e => (ts.getD e.1 (none, []), e.2))) := by
  unfold apply blend
  rw [List.map_map]
  congr 1
  apply List.map_congr_left
  intro e he
  have := hc e he
  simp only [Function.comp, gather, List.getD_eq_getElem?_getD, List.getElem?_map, List.getElem?_eq_getElem this, Option.map_some, Option.getD_some]

/-- C99: for interpolation and matching pursuit the row of a new token is a combination of rows of shared tokens, the coefficients being those found for
the rows of the same tokens in the donor. -/
theorem C99_combination {dd od : Nat} {o : Tools dd od} {m : Method} (hm : m = .commonInterpolation ∨ m = .omp) {basis : Option (List (Fin dd → ℝ) × List (Fin od → ℝ))}
    {i : Input dd od} {ts : List NToken} {rows : List (Fin od → ℝ)}
    (ho : ∀ points target c, o.combine points target = .ok c → ∀ e ∈ c, e.1 < points.length) (h : compute o m basis i ts = .ok rows)
    {k : Nat} {t : NToken} (ht : ts[k]? = some t) :
    ∃ (used : List (NToken × ℝ)) (c : List (Nat × ℝ)) (points : List (Fin dd → ℝ)), rows[k]? = some (blend i.orig i.origVocab used) ∧
      (∀ e ∈ used, e.1 ∈ i.origVocab.map Prod.fst ∧ e.1 ∈ i.donorVocab.map Prod.fst) ∧
      o.combine points (i.donor.row ((get i.donorVocab t).getD 0)) = .ok c ∧ apply points c = blend i.donor i.donorVocab used := by
  have h' : withShared i (combined o) ts = .ok rows := by
    unfold compute at h
    split at h
    · cases h
    · rcases hm with rfl | rfl <;> exact h
  unfold withShared at h'
  split at h'
  · cases h'
  · obtain ⟨_, h2⟩ := mapM_spec h'
    obtain ⟨b, hb, hk⟩ := h2 k (i.donor.row ((get i.donorVocab t).getD 0)) (by unfold gather; rw [List.getElem?_map, ht]; rfl)
    unfold combined at hb
    cases hc : o.combine (gather i.donor i.donorVocab (shared i.origVocab i.donorVocab)) (i.donor.row ((get i.donorVocab t).getD 0)) with
    | error e => rw [hc] at hb; cases hb
    | ok c =>
      rw [hc] at hb
      cases hb
      have hlt : ∀ e ∈ c, e.1 < (shared i.origVocab i.donorVocab).length := by
        intro e he
        have := ho _ _ _ hc e he
        unfold gather at this
        rwa [List.length_map] at this
      refine ⟨c.map (fun e => ((shared i.origVocab i.donorVocab).getD e.1 (none, []), e.2)), c, _, ?_, ?_, hc, apply_gather _ _ _ _ hlt⟩
      · rw [hk, apply_gather _ _ _ _ hlt]
      · intro e he
        obtain ⟨e', he', rfl⟩ := List.mem_map.mp he
        apply mem_shared.mp
        have := hlt e' he'
        show (shared i.origVocab i.donorVocab).getD e'.1 (none, []) ∈ _
        rw [List.getD_eq_getElem?_getD, List.getElem?_eq_getElem this, Option.getD_some]
        exact List.getElem_mem _

theorem blend_map {dd od : Nat} (a : (Fin dd → ℝ) →ₗ[ℝ] (Fin od → ℝ)) {m : Emb (Fin dd → ℝ)} {m' : Emb (Fin od → ℝ)} {v v' : Vocab} {c : List (NToken × ℝ)}
    (h : ∀ e ∈ c, m'.row ((get v' e.1).getD 0) = a (m.row ((get v e.1).getD 0))) : blend m' v' c = a (blend m v c) := by
  unfold blend
  rw [map_list_sum, List.map_map]
  congr 1
  apply List.map_congr_left
  intro e he
  simp only [Function.comp, map_smul, h e he]

/-- C99: if the rows of the shared tokens in the original model come from those in the donor by a linear map, then so does a new row from what is made of
the rows of the donor with the same coefficients; in particular, if that is the row of the new token in the donor, the new row is its image. -/
theorem C99_transport {dd od : Nat} {o : Tools dd od} {m : Method} (hm : m = .commonInterpolation ∨ m = .omp) {basis : Option (List (Fin dd → ℝ) × List (Fin od → ℝ))}
    {i : Input dd od} {ts : List NToken} {rows : List (Fin od → ℝ)}
    (ho : ∀ points target c, o.combine points target = .ok c → ∀ e ∈ c, e.1 < points.length) (h : compute o m basis i ts = .ok rows)
    (a : (Fin dd → ℝ) →ₗ[ℝ] (Fin od → ℝ))
    (ha : ∀ t, t ∈ i.origVocab.map Prod.fst → t ∈ i.donorVocab.map Prod.fst → i.orig.row ((get i.origVocab t).getD 0) = a (i.donor.row ((get i.donorVocab t).getD 0)))
    {k : Nat} {t : NToken} (ht : ts[k]? = some t) :
    ∃ (c : List (Nat × ℝ)) (points : List (Fin dd → ℝ)), o.combine points (i.donor.row ((get i.donorVocab t).getD 0)) = .ok c ∧ rows[k]? = some (a (apply points c)) := by
  obtain ⟨used, c, points, h1, h2, h3, h4⟩ := C99_combination hm ho h ht
  refine ⟨c, points, h3, ?_⟩
  rw [h1, h4, blend_map a (fun e he => ha e.1 (h2 e he).1 (h2 e he).2)]

/-- C99: the simple methods: the mean of the original rows, or zero, for every new token. -/
theorem C99_simple {dd od : Nat} (o : Tools dd od) (basis : Option (List (Fin dd → ℝ) × List (Fin od → ℝ))) (i : Input dd od) (ts : List NToken)
    (ht : ∀ t ∈ ts, t ∈ i.donorVocab.map Prod.fst) :
    compute o .mean basis i ts = .ok (List.replicate ts.length (fun j => (∑ r ∈ Finset.range i.orig.rows, i.orig.row r j) / i.orig.rows)) ∧
    compute o .zero basis i ts = .ok (List.replicate ts.length 0) := by
  unfold compute
  rw [if_neg (not_not.mpr ht), if_neg (not_not.mpr ht)]
  exact ⟨by simp only [List.map_const']; rfl, by simp only [List.map_const']⟩

/-- C99: every method that succeeds gives one row for each token. -/
theorem C99_rows {dd od : Nat} {o : Tools dd od} {m : Method} {basis : Option (List (Fin dd → ℝ) × List (Fin od → ℝ))} {i : Input dd od} {ts : List NToken}
    {rows : List (Fin od → ℝ)} (h : compute o m basis i ts = .ok rows) : rows.length = ts.length := by
  have hs : ∀ f, withShared i f ts = .ok rows → rows.length = ts.length := by
    intro f hf
    unfold withShared at hf
    split at hf
    · cases hf
    · rw [(mapM_spec hf).1]; simp [gather]
  unfold compute at h
  split at h
  · cases h
  · cases m with
    | commonInterpolation => exact hs _ h
    | omp => exact hs _ h
    | landmarkPca => exact hs _ h
    | mpRope => exact hs _ h
    | subword => exact (mapM_spec h).1
    | mean => cases h; simp
    | zero => cases h; simp
    | randn => cases h; simp
    | johnHewitt =>
      simp only [johnHewitt] at h
      split at h
      · cases h; simp
      · cases h
    | stb =>
      cases basis with
      | none => cases h
      | some b => cases h; simp [gather]

/-- The quadratic form of the covariance. -/
theorem covariance_form {d : Nat} (m : Emb (Fin d → ℝ)) (x : Fin d → ℝ) :
    ∑ a, ∑ b, x a * covariance m a b * x b = (∑ i ∈ Finset.range m.rows, (∑ a, x a * (m.row i a - mean m a)) ^ 2) / m.rows := by
  unfold covariance
  rw [Finset.sum_div]
  have h1 : ∀ i, (∑ a, x a * (m.row i a - mean m a)) ^ 2 / (m.rows : ℝ) =
      ∑ a, ∑ b, x a * ((m.row i a - mean m a) * (m.row i b - mean m b) / m.rows) * x b := by
    intro i
    rw [sq, Finset.sum_mul_sum, Finset.sum_div]
    refine Finset.sum_congr rfl fun a _ => ?_
    rw [Finset.sum_div]
    exact Finset.sum_congr rfl fun b _ => by ring
  simp only [h1]
  conv_rhs => rw [Finset.sum_comm]
  refine Finset.sum_congr rfl fun a _ => ?_
  conv_rhs => rw [Finset.sum_comm]
  refine Finset.sum_congr rfl fun b _ => ?_
  rw [Finset.sum_div, Finset.mul_sum, Finset.sum_mul]

/-- C99 does not hold for the method that samples: if some direction is the same in all rows, the fallback announced in the warning fails with a
`TypeError`. -/
theorem C99_john_hewitt {dd od : Nat} (o : Tools dd od) (basis : Option (List (Fin dd → ℝ) × List (Fin od → ℝ))) (i : Input dd od) (ts : List NToken)
    (ht : ∀ t ∈ ts, t ∈ i.donorVocab.map Prod.fst) {x : Fin od → ℝ} (hx : x ≠ 0) {c : ℝ} (hc : ∀ r < i.orig.rows, ∑ a, x a * i.orig.row r a = c) :
    compute o .johnHewitt basis i ts = .error .type := by
  unfold compute
  rw [if_neg (not_not.mpr ht)]
  show johnHewitt o i.orig ts.length = _
  unfold johnHewitt
  rw [if_neg]
  intro hp
  have := hp x hx
  rw [covariance_form] at this
  have hz : ∑ r ∈ Finset.range i.orig.rows, (∑ a, x a * (i.orig.row r a - mean i.orig a)) ^ 2 = 0 := by
    apply Finset.sum_eq_zero
    intro r hr
    have hn : (i.orig.rows : ℝ) ≠ 0 := by
      have := Finset.mem_range.mp hr
      exact_mod_cast (by omega : i.orig.rows ≠ 0)
    have h1 : ∑ a, x a * mean i.orig a = c := by
      unfold mean
      have : ∀ a, x a * ((∑ r ∈ Finset.range i.orig.rows, i.orig.row r a) / (i.orig.rows : ℝ)) = (∑ r ∈ Finset.range i.orig.rows, x a * i.orig.row r a) / i.orig.rows := by
        intro a
        rw [← Finset.mul_sum]; ring
      simp only [this]
      rw [← Finset.sum_div, Finset.sum_comm, Finset.sum_congr rfl (fun r hr => hc r (Finset.mem_range.mp hr)), Finset.sum_const, Finset.card_range, nsmul_eq_mul]
      field_simp
    have h2 : ∑ a, x a * (i.orig.row r a - mean i.orig a) = 0 := by
      simp only [mul_sub, Finset.sum_sub_distrib]
      rw [h1, hc r (Finset.mem_range.mp hr), sub_self]
    rw [h2]; ring
  rw [hz, zero_div] at this
  exact lt_irrefl _ this

/-- C99: that is always the case if there are not more rows than entries in a row. -/
theorem C99_john_hewitt_few {dd od : Nat} (o : Tools dd od) (basis : Option (List (Fin dd → ℝ) × List (Fin od → ℝ))) (i : Input dd od) (ts : List NToken)
    (ht : ∀ t ∈ ts, t ∈ i.donorVocab.map Prod.fst) (hpos : 0 < i.orig.rows) (hfew : i.orig.rows ≤ od) : compute o .johnHewitt basis i ts = .error .type := by
  -- the differences to the first row
  let f : (Fin od → ℝ) →ₗ[ℝ] (Fin (i.orig.rows - 1) → ℝ) :=
    { toFun := fun x r => ∑ a, x a * (i.orig.row (r.1 + 1) a - i.orig.row 0 a)
      map_add' := by intro x y; funext r; simp [add_mul, Finset.sum_add_distrib]
      map_smul' := by intro s x; funext r; simp [Finset.mul_sum, mul_assoc] }
  have hker : LinearMap.ker f ≠ ⊥ := by
    apply LinearMap.ker_ne_bot_of_finrank_lt
    simp only [Module.finrank_fin_fun]
    omega
  obtain ⟨x, hxm, hx⟩ := (Submodule.ne_bot_iff _).mp hker
  refine C99_john_hewitt o basis i ts ht hx (c := ∑ a, x a * i.orig.row 0 a) ?_
  intro r hr
  cases r with
  | zero => rfl
  | succ r =>
    have := congrFun (LinearMap.mem_ker.mp hxm) ⟨r, by omega⟩
    have h2 : ∑ a, x a * (i.orig.row (r + 1) a - i.orig.row 0 a) = 0 := this
    simp only [mul_sub, Finset.sum_sub_distrib] at h2
    linarith

/-! ## C100: the sparse token basis -/

/-- C100 does not hold: with the method `stb` no matrix is ever built. -/
theorem C100_never {dd od : Nat} (ws : Char → Bool) (ab ap : Bool) (o : Tools dd od) (bo : BasisTools) (noise : Option (Nat → Nat → Fin od → ℝ))
    (scale : Option ((Fin od → ℝ) → Fin od → ℝ)) (batch : Option Int) (i : Input dd od) (junk : List Nat) (out : Emb (Fin od → ℝ)) :
    build ws ab ap o bo .stb noise scale batch i junk ≠ .ok out := by
  have hb : ∃ e, basisFor bo .stb i junk = .error e := by
    unfold basisFor tokenBasis sparseBasis
    rw [if_pos rfl]
    split
    · exact ⟨_, rfl⟩
    · split <;> exact ⟨_, rfl⟩
  obtain ⟨e, he⟩ := hb
  unfold build
  rw [he]
  cases Surgeon.outSize i.donorVocab with
  | error e => intro h; cases h
  | ok n => intro h; cases h

theorem mem_commonTokens {orig donor : Vocab} {junk : List Nat} {t : NToken} :
    t ∈ commonTokens orig donor junk ↔ t ∈ orig.map Prod.fst ∧ ∃ id, get donor t = some id ∧ id ∉ junk := by
  unfold commonTokens
  rw [List.mem_filter]
  cases hg : get donor t with
  | none => simp
  | some id => simp

/-- C100: with a number for `k`, the basis vectors of the two models are combinations of the same shared tokens, none of them junk, with the same
coefficients. -/
theorem C100_basis {bo : BasisTools} {dd od : Nat} {i : Input dd od} {junk : List Nat} {k : Nat} {b : List (Fin dd → ℝ) × List (Fin od → ℝ)}
    (ho : ∀ (d : Nat) (points : List (Fin d → ℝ)) u k, k ≤ points.length → ∀ e ∈ bo.pursuit points u k, e.1 < points.length)
    (h : tokenBasis bo i junk (.int k) = .ok b) :
    ∃ cs : List (List (NToken × ℝ)), b.1 = cs.map (blend i.donor i.donorVocab) ∧ b.2 = cs.map (blend i.orig i.origVocab) ∧
      ∀ c ∈ cs, ∀ e ∈ c, e.1 ∈ i.origVocab.map Prod.fst ∧ ∃ id, get i.donorVocab e.1 = some id ∧ id ∉ junk := by
  unfold tokenBasis at h
  split at h
  · cases h
  · have key : ∀ {d : Nat} (m : Emb (Fin d → ℝ)) (v : Vocab) {cs : List (List (Nat × ℝ))},
        sparseBasis bo (gather m v (commonTokens i.origVocab i.donorVocab junk)) (.int k) = .ok cs →
        ∀ c ∈ cs, ∀ e ∈ c, e.1 < (commonTokens i.origVocab i.donorVocab junk).length := by
      intro d m v cs hcs c hc e he
      unfold sparseBasis at hcs
      simp only at hcs
      split at hcs
      · cases hcs
      · rename_i hk
        cases hcs
        obtain ⟨u, _, rfl⟩ := List.mem_map.mp hc
        have := ho _ _ _ _ (by simpa [centered] using not_lt.mp hk) e he
        simpa [centered, gather] using this
    have fin : ∀ cs : List (List (Nat × ℝ)), (∀ c ∈ cs, ∀ e ∈ c, e.1 < (commonTokens i.origVocab i.donorVocab junk).length) →
        (cs.map (apply (gather i.donor i.donorVocab (commonTokens i.origVocab i.donorVocab junk))),
          cs.map (apply (gather i.orig i.origVocab (commonTokens i.origVocab i.donorVocab junk)))) = b →
        ∃ cs : List (List (NToken × ℝ)), b.1 = cs.map (blend i.donor i.donorVocab) ∧ b.2 = cs.map (blend i.orig i.origVocab) ∧
          ∀ c ∈ cs, ∀ e ∈ c, e.1 ∈ i.origVocab.map Prod.fst ∧ ∃ id, get i.donorVocab e.1 = some id ∧ id ∉ junk := by
      intro cs hlt hb
      refine ⟨cs.map (fun c => c.map (fun e => ((commonTokens i.origVocab i.donorVocab junk).getD e.1 (none, []), e.2))), ?_, ?_, ?_⟩
      · rw [← hb, List.map_map]
        exact List.map_congr_left fun c hc => apply_gather _ _ _ _ (hlt c hc)
      · rw [← hb, List.map_map]
        exact List.map_congr_left fun c hc => apply_gather _ _ _ _ (hlt c hc)
      · intro c hc e he
        obtain ⟨c', hc', rfl⟩ := List.mem_map.mp hc
        obtain ⟨e', he', rfl⟩ := List.mem_map.mp he
        apply mem_commonTokens.mp
        have := hlt c' hc' e' he'
        show (commonTokens i.origVocab i.donorVocab junk).getD e'.1 (none, []) ∈ _
        rw [List.getD_eq_getElem?_getD, List.getElem?_eq_getElem this, Option.getD_some]
        exact List.getElem_mem _
    by_cases hd : dd < od
    · rw [if_pos hd] at h
      cases hcs : sparseBasis bo (gather i.donor i.donorVocab (commonTokens i.origVocab i.donorVocab junk)) (.int k) with
      | error e => rw [hcs] at h; cases h
      | ok cs =>
        rw [hcs] at h
        exact fin cs (key _ _ hcs) (Except.ok.inj h)
    · rw [if_neg hd] at h
      cases hcs : sparseBasis bo (gather i.orig i.origVocab (commonTokens i.origVocab i.donorVocab junk)) (.int k) with
      | error e => rw [hcs] at h; cases h
      | ok cs =>
        rw [hcs] at h
        exact fin cs (key _ _ hcs) (Except.ok.inj h)

theorem zipWith_map {dd od : Nat} (a : (Fin dd → ℝ) →ₗ[ℝ] (Fin od → ℝ)) : ∀ (c : List ℝ) (b : List (Fin dd → ℝ)),
    (List.zipWith (· • ·) c (b.map a)).sum = a (List.zipWith (· • ·) c b).sum
  | [], b => by simp
  | _ :: _, [] => by simp
  | x :: c, y :: b => by simp [zipWith_map a c b]

/-- C100: if the original model's rows of the shared tokens and its mean come from those of the donor by a linear map, and the donor's row of a new token
is (up to the mean) a combination of the basis, then the new row is the image of the donor's. -/
theorem C100_linear {bo : BasisTools} {dd od : Nat} {o : Tools dd od} {i : Input dd od} {junk : List Nat} {k : Nat} {b : List (Fin dd → ℝ) × List (Fin od → ℝ)}
    (ho : ∀ (d : Nat) (points : List (Fin d → ℝ)) u k, k ≤ points.length → ∀ e ∈ bo.pursuit points u k, e.1 < points.length)
    (h : tokenBasis bo i junk (.int k) = .ok b) (a : (Fin dd → ℝ) →ₗ[ℝ] (Fin od → ℝ))
    (ha : ∀ t, t ∈ i.origVocab.map Prod.fst → t ∈ i.donorVocab.map Prod.fst → i.orig.row ((get i.origVocab t).getD 0) = a (i.donor.row ((get i.donorVocab t).getD 0)))
    (hmean : mean i.orig = a (mean i.donor)) {ts : List NToken} {rows : List (Fin od → ℝ)} (hr : compute o .stb (some b) i ts = .ok rows)
    {n : Nat} {t : NToken} (ht : ts[n]? = some t)
    (hexact : (List.zipWith (· • ·) (o.lstsq b.1 (i.donor.row ((get i.donorVocab t).getD 0) - mean i.donor)) b.1).sum = i.donor.row ((get i.donorVocab t).getD 0) - mean i.donor) :
    rows[n]? = some (a (i.donor.row ((get i.donorVocab t).getD 0))) := by
  obtain ⟨cs, h1, h2, h3⟩ := C100_basis ho h
  have hb : b.2 = b.1.map a := by
    rw [h1, h2, List.map_map]
    apply List.map_congr_left
    intro c hc
    exact blend_map a fun e he => by
      obtain ⟨g1, id, g2, _⟩ := h3 c hc e he
      exact ha e.1 g1 (by
        unfold Tok.get at g2
        cases hf : i.donorVocab.find? (fun x => decide (x.1 = e.1)) with
        | none => rw [hf] at g2; cases g2
        | some x =>
          have h5 := List.find?_some hf
          rw [decide_eq_true_eq] at h5
          rw [← h5]
          exact List.mem_map_of_mem (List.mem_of_find?_eq_some hf))
  unfold compute at hr
  split at hr
  · cases hr
  · cases hr
    rw [List.getElem?_map]
    unfold gather
    rw [List.getElem?_map, ht]
    simp only [Option.map_some, Option.some.injEq]
    unfold byBasis
    rw [hb, zipWith_map, hexact, hmean, ← map_add, sub_add_cancel]

/-- The sum of the coefficients of a combination. -/
def total (c : List (NToken × ℝ)) : ℝ := (c.map Prod.snd).sum

theorem blend_shift {d : Nat} {m m' : Emb (Fin d → ℝ)} {v v' : Vocab} {s : Fin d → ℝ} : ∀ {c : List (NToken × ℝ)},
    (∀ e ∈ c, m'.row ((get v' e.1).getD 0) = m.row ((get v e.1).getD 0) + s) → blend m' v' c = blend m v c + total c • s
  | [], _ => by simp [blend, total]
  | e :: c, h => by
    have ih := blend_shift (c := c) (fun e' he' => h e' (List.mem_cons_of_mem _ he'))
    unfold blend total at ih ⊢
    simp only [List.map_cons, List.sum_cons, ih, h e List.mem_cons_self, add_smul, smul_add]
    abel

theorem zipWith_shift {d : Nat} (s : Fin d → ℝ) : ∀ (w : List ℝ) (cs : List (List (NToken × ℝ))) (f : List (NToken × ℝ) → Fin d → ℝ),
    (List.zipWith (· • ·) w (cs.map (fun c => f c + total c • s))).sum =
      (List.zipWith (· • ·) w (cs.map f)).sum + (List.zipWith (· * ·) w (cs.map total)).sum • s
  | [], cs, f => by simp
  | _ :: _, [], f => by simp
  | x :: w, c :: cs, f => by
    simp only [List.map_cons, List.zipWith_cons_cons, List.sum_cons, zipWith_shift s w cs f, smul_add, add_smul, mul_smul]
    abel

/-- C100 does not hold for models that differ by a shift: coefficients found without the means are applied to rows with them.  If all rows of the shared
tokens and the mean are shifted by `s`, the new row is shifted by `s` and by a multiple of `s` that depends on the coefficients. -/
theorem C100_shift {bo : BasisTools} {d : Nat} {o : Tools d d} {i : Input d d} {junk : List Nat} {k : Nat} {b : List (Fin d → ℝ) × List (Fin d → ℝ)}
    (ho : ∀ (d : Nat) (points : List (Fin d → ℝ)) u k, k ≤ points.length → ∀ e ∈ bo.pursuit points u k, e.1 < points.length)
    (h : tokenBasis bo i junk (.int k) = .ok b) (s : Fin d → ℝ)
    (ha : ∀ t, t ∈ i.origVocab.map Prod.fst → i.orig.row ((get i.origVocab t).getD 0) = i.donor.row ((get i.donorVocab t).getD 0) + s)
    (hmean : mean i.orig = mean i.donor + s) {ts : List NToken} {rows : List (Fin d → ℝ)} (hr : compute o .stb (some b) i ts = .ok rows)
    {n : Nat} {t : NToken} (ht : ts[n]? = some t)
    (hexact : (List.zipWith (· • ·) (o.lstsq b.1 (i.donor.row ((get i.donorVocab t).getD 0) - mean i.donor)) b.1).sum = i.donor.row ((get i.donorVocab t).getD 0) - mean i.donor) :
    ∃ cs : List (List (NToken × ℝ)), b.1 = cs.map (blend i.donor i.donorVocab) ∧
      rows[n]? = some (i.donor.row ((get i.donorVocab t).getD 0) + s +
        (List.zipWith (· * ·) (o.lstsq b.1 (i.donor.row ((get i.donorVocab t).getD 0) - mean i.donor)) (cs.map total)).sum • s) := by
  obtain ⟨cs, h1, h2, h3⟩ := C100_basis ho h
  refine ⟨cs, h1, ?_⟩
  have hb : b.2 = cs.map (fun c => blend i.donor i.donorVocab c + total c • s) := by
    rw [h2]
    apply List.map_congr_left
    intro c hc
    exact blend_shift fun e he => ha e.1 (h3 c hc e he).1
  unfold compute at hr
  split at hr
  · cases hr
  · cases hr
    rw [List.getElem?_map]
    unfold gather
    rw [List.getElem?_map, ht]
    simp only [Option.map_some, Option.some.injEq]
    unfold byBasis
    rw [hb, zipWith_shift, ← h1, hexact, hmean]
    abel

/-- C99: with a positive definite covariance the rows are samples of the normal distribution with the mean and the covariance of the original rows. -/
theorem C99_samples {dd od : Nat} (o : Tools dd od) (basis : Option (List (Fin dd → ℝ) × List (Fin od → ℝ))) (i : Input dd od) (ts : List NToken)
    (ht : ∀ t ∈ ts, t ∈ i.donorVocab.map Prod.fst)
    (hp : ∀ x : Fin od → ℝ, x ≠ 0 → ∃ r s, r < i.orig.rows ∧ s < i.orig.rows ∧ ∑ a, x a * i.orig.row r a ≠ ∑ a, x a * i.orig.row s a) :
    compute o .johnHewitt basis i ts = .ok ((List.range ts.length).map (o.normal
      (fun j => (∑ r ∈ Finset.range i.orig.rows, i.orig.row r j) / i.orig.rows)
      (fun a b => (∑ r ∈ Finset.range i.orig.rows, (i.orig.row r a - (∑ r ∈ Finset.range i.orig.rows, i.orig.row r a) / i.orig.rows) *
        (i.orig.row r b - (∑ r ∈ Finset.range i.orig.rows, i.orig.row r b) / i.orig.rows)) / i.orig.rows))) := by
  unfold compute
  rw [if_neg (not_not.mpr ht)]
  show johnHewitt o i.orig ts.length = _
  unfold johnHewitt
  rw [if_pos]
  · rfl
  · intro x hx
    obtain ⟨r, s, hr, hs, hne⟩ := hp x hx
    rw [covariance_form]
    have hn : (0 : ℝ) < i.orig.rows := by exact_mod_cast (by omega : 0 < i.orig.rows)
    apply div_pos _ hn
    by_contra hcon
    have h0 := (Finset.sum_eq_zero_iff_of_nonneg (fun j _ => sq_nonneg _)).mp (le_antisymm (not_lt.mp hcon) (Finset.sum_nonneg fun j _ => sq_nonneg _))
    have h1 := pow_eq_zero_iff (two_ne_zero) |>.mp (h0 r (Finset.mem_range.mpr hr))
    have h2 := pow_eq_zero_iff (two_ne_zero) |>.mp (h0 s (Finset.mem_range.mpr hs))
    simp only [mul_sub, Finset.sum_sub_distrib] at h1 h2
    exact hne (by linarith)

/-- C100: with a number for `k` the basis is refused exactly if there are no common tokens or fewer than `k`. -/
theorem C100_refused (bo : BasisTools) {dd od : Nat} (i : Input dd od) (junk : List Nat) (k : Nat) :
    (∃ b, tokenBasis bo i junk (.int k) = .ok b) ↔ commonTokens i.origVocab i.donorVocab junk ≠ [] ∧ k ≤ (commonTokens i.origVocab i.donorVocab junk).length := by
  have hs : ∀ {d : Nat} (m : Emb (Fin d → ℝ)) (v : Vocab), (∃ cs, sparseBasis bo (gather m v (commonTokens i.origVocab i.donorVocab junk)) (.int k) = .ok cs) ↔
      k ≤ (commonTokens i.origVocab i.donorVocab junk).length := by
    intro d m v
    unfold sparseBasis gather
    simp only [List.length_map]
    split
    · rename_i h
      exact ⟨fun ⟨_, h'⟩ => (by cases h'), fun h' => absurd h (not_lt.mpr h')⟩
    · rename_i h
      exact ⟨fun _ => not_lt.mp h, fun _ => ⟨_, rfl⟩⟩
  have hmap : ∀ {A B : Type} (e : Except Err A) (f : A → B), (∃ b, e.map f = .ok b) ↔ ∃ a, e = .ok a := by
    intro A B e f
    cases e with
    | error e => exact ⟨fun ⟨_, h⟩ => (by cases h), fun ⟨_, h⟩ => (by cases h)⟩
    | ok a => exact ⟨fun _ => ⟨a, rfl⟩, fun _ => ⟨f a, rfl⟩⟩
  unfold tokenBasis
  by_cases hc : commonTokens i.origVocab i.donorVocab junk = []
  · rw [if_pos hc]
    exact ⟨fun ⟨_, h⟩ => (by cases h), fun h => absurd hc h.1⟩
  · rw [if_neg hc, hmap]
    by_cases hd : dd < od
    · rw [if_pos hd, hs]; exact ⟨fun h => ⟨hc, h⟩, fun h => h.2⟩
    · rw [if_neg hd, hs]; exact ⟨fun h => ⟨hc, h⟩, fun h => h.2⟩

/-- The donor has the rows 1, 2 and 6; those of the original model are larger by 1. -/
noncomputable def shifted : Input 1 1 :=
  { orig := ⟨3, fun r _ => if r = 0 then 2 else if r = 1 then 3 else 7⟩, donor := ⟨3, fun r _ => if r = 0 then 1 else if r = 1 then 2 else 6⟩,
    origVocab := [((none, cs!"a"), 0), ((none, cs!"b"), 1)], donorVocab := [((none, cs!"a"), 0), ((none, cs!"b"), 1), ((none, cs!"c"), 2)] }

/-- With one dimension, a single point is enough for any target. -/
noncomputable def exactTools : Tools 1 1 :=
  { combine := fun _ _ => .ok [], direct := fun _ _ _ => .ok 0, pieces := fun _ => .ok 0, randn := fun _ => 0, normal := fun m _ _ => m,
    lstsq := fun b t => [t 0 / b.headD 0 0] }

/-- The direction 1 and the first point as often as needed for it. -/
noncomputable def exactBasis : BasisTools :=
  { directions := fun _ => [fun _ => 1], pursuit := fun {d} p u k => if h : 0 < d ∧ 0 < k then [(0, u ⟨0, h.1⟩ / p.headD 0 ⟨0, h.1⟩)] else [] }

theorem shifted_common : commonTokens shifted.origVocab shifted.donorVocab [] = [(none, cs!"a"), (none, cs!"b")] := by unfold shifted; decide +kernel

theorem shifted_basis : tokenBasis exactBasis shifted [] (.int 1) = .ok ([fun _ => -2], [fun _ => -4]) := by
  unfold tokenBasis
  rw [shifted_common, if_neg (by simp), if_neg (by decide)]
  have e1 : get shifted.origVocab ((none, cs!"a") : NToken) = some 0 := by unfold shifted; decide +kernel
  have e2 : get shifted.origVocab ((none, cs!"b") : NToken) = some 1 := by unfold shifted; decide +kernel
  have e3 : get shifted.donorVocab ((none, cs!"a") : NToken) = some 0 := by unfold shifted; decide +kernel
  have e4 : get shifted.donorVocab ((none, cs!"b") : NToken) = some 1 := by unfold shifted; decide +kernel
  simp only [gather, List.map_cons, List.map_nil, e1, e2, e3, e4, Option.getD_some]
  unfold sparseBasis
  simp only [List.length_cons, List.length_nil, exactBasis, centered, Except.map, List.map_cons, List.map_nil, List.sum_cons, List.sum_nil]
  norm_num [shifted]
  constructor <;> (funext j; unfold NewRows.apply; simp <;> norm_num)

/-- C100 does not hold: all rows of the shared tokens and the mean are shifted by 1, the basis and the coefficients are exact, and yet the new row is not
the donor's row 6 shifted by 1 but 10. -/
theorem C100_shift_wrong : (∀ t, t ∈ shifted.origVocab.map Prod.fst →
      shifted.orig.row ((get shifted.origVocab t).getD 0) = shifted.donor.row ((get shifted.donorVocab t).getD 0) + fun _ => 1) ∧
    mean shifted.orig = mean shifted.donor + (fun _ => 1) ∧
    (∃ b, tokenBasis exactBasis shifted [] (.int 1) = .ok b ∧
      (List.zipWith (· • ·) (exactTools.lstsq b.1 (shifted.donor.row 2 - mean shifted.donor)) b.1).sum = shifted.donor.row 2 - mean shifted.donor ∧
      compute exactTools .stb (some b) shifted [(none, cs!"c")] = .ok [fun _ => 10]) ∧
    shifted.donor.row 2 = fun _ => 6 := by
  have m1 : mean shifted.donor = fun _ => 3 := by
    funext j; simp [mean, shifted, Finset.sum_range_succ]; norm_num
  have m2 : mean shifted.orig = fun _ => 4 := by
    funext j; simp [mean, shifted, Finset.sum_range_succ]; norm_num
  have r2 : shifted.donor.row 2 = fun _ => 6 := by funext j; simp [shifted]
  refine ⟨?_, ?_, ⟨_, shifted_basis, ?_, ?_⟩, r2⟩
  · intro t ht
    simp only [shifted, List.map_cons, List.map_nil, List.mem_cons, List.not_mem_nil, or_false] at ht
    rcases ht with rfl | rfl
    · have e1 : get shifted.origVocab ((none, cs!"a") : NToken) = some 0 := by unfold shifted; decide +kernel
      have e3 : get shifted.donorVocab ((none, cs!"a") : NToken) = some 0 := by unfold shifted; decide +kernel
      rw [e1, e3]; funext j; simp [shifted]; norm_num
    · have e2 : get shifted.origVocab ((none, cs!"b") : NToken) = some 1 := by unfold shifted; decide +kernel
      have e4 : get shifted.donorVocab ((none, cs!"b") : NToken) = some 1 := by unfold shifted; decide +kernel
      rw [e2, e4]; funext j; simp [shifted]; norm_num
  · rw [m1, m2]; funext j; simp; norm_num
  · rw [r2, m1]; funext j; simp [exactTools]; norm_num
  · have e5 : get shifted.donorVocab ((none, cs!"c") : NToken) = some 2 := by unfold shifted; decide +kernel
    unfold compute
    rw [if_neg (by unfold shifted; decide +kernel)]
    simp only [gather, List.map_cons, List.map_nil, e5, Option.getD_some, r2, m1, m2]
    congr 2
    funext j
    simp [byBasis, exactTools]; norm_num

example : ∀ (d : Nat) (points : List (Fin d → ℝ)) u k, k ≤ points.length → ∀ e ∈ exactBasis.pursuit points u k, e.1 < points.length := by
  intro d p u k hk e he
  simp only [exactBasis] at he
  split at he
  · rename_i h
    simp only [List.mem_cons, List.not_mem_nil, or_false] at he
    subst he
    show 0 < p.length
    omega
  · cases he

/-! ## The hypotheses can be met -/

/-- Two shared tokens, a new one, rows of two entries. -/
noncomputable def sample : Input 2 2 :=
  { orig := ⟨3, fun r j => if r = j.1 then 2 else 0⟩, donor := ⟨3, fun r j => if r = j.1 then 1 else if r = 2 then 3 else 0⟩,
    origVocab := [((none, cs!"b"), 1), ((none, cs!"a"), 0)], donorVocab := [((none, cs!"a"), 0), ((none, cs!"b"), 1), ((none, cs!"c"), 2)] }

/-- A combination of both points whatever the target. -/
noncomputable def tools : Tools 2 2 :=
  { combine := fun p _ => if p.length = 2 then .ok [(0, 3), (1, 3)] else .ok [], direct := fun _ _ _ => .ok 0, pieces := fun _ => .ok 0, randn := fun _ => 0,
    normal := fun m _ _ => m, lstsq := fun _ _ => [] }

example : ∃ rows, compute tools .omp none sample [(none, cs!"c")] = .ok rows := by
  unfold compute
  rw [if_neg (by unfold sample; decide +kernel)]
  show ∃ rows, withShared _ _ _ = _
  unfold withShared
  have hs : (none, cs!"a") ∈ shared sample.origVocab sample.donorVocab := mem_shared.mpr (by unfold sample; simp)
  rw [if_neg (by intro h; rw [h] at hs; cases hs)]
  have hc : ∀ p q t, ∃ r, combined tools p q t = .ok r := by
    intro p q t
    simp only [combined, tools]
    split <;> exact ⟨_, rfl⟩
  obtain ⟨r, hr⟩ := hc (gather sample.donor sample.donorVocab (shared sample.origVocab sample.donorVocab))
    (gather sample.orig sample.origVocab (shared sample.origVocab sample.donorVocab)) (sample.donor.row ((get sample.donorVocab (none, cs!"c")).getD 0))
  refine ⟨[r], ?_⟩
  unfold gather at hr ⊢
  rw [List.map_cons, List.mapM_cons, hr]
  rfl

example : (∀ points target c, tools.combine points target = .ok c → ∀ e ∈ c, e.1 < points.length) ∧
    ∀ t ∈ [((none, cs!"c") : NToken)], t ∈ sample.donorVocab.map Prod.fst := by
  constructor
  · intro p t c h e he
    simp only [tools] at h
    split at h
    · cases h
      simp only [List.mem_cons, List.not_mem_nil, or_false] at he
      rcases he with rfl | rfl <;> simp_all
    · cases h; cases he
  · unfold sample; simp

/-- The linear map of the example doubles every row. -/
example : ∀ t, t ∈ sample.origVocab.map Prod.fst → t ∈ sample.donorVocab.map Prod.fst →
    sample.orig.row ((get sample.origVocab t).getD 0) = ((2 : ℝ) • LinearMap.id : (Fin 2 → ℝ) →ₗ[ℝ] (Fin 2 → ℝ)) (sample.donor.row ((get sample.donorVocab t).getD 0)) := by
  intro t h _
  simp only [sample, List.map_cons, List.map_nil, List.mem_cons, List.not_mem_nil, or_false] at h
  rcases h with rfl | rfl
  · funext j
    have e1 : get sample.origVocab ((none, cs!"b") : NToken) = some 1 := by unfold sample; decide +kernel
    have e2 : get sample.donorVocab ((none, cs!"b") : NToken) = some 1 := by unfold sample; decide +kernel
    rw [e1, e2]
    simp [sample]
  · funext j
    have e1 : get sample.origVocab ((none, cs!"a") : NToken) = some 0 := by unfold sample; decide +kernel
    have e2 : get sample.donorVocab ((none, cs!"a") : NToken) = some 0 := by unfold sample; decide +kernel
    rw [e1, e2]
    simp [sample]

/-- A basis of the example, by a pursuit that always takes the first points. -/
example : ∃ b, tokenBasis ⟨fun _ => [fun _ => 0], fun p _ k => if p.length < k then [] else (List.range k).map (fun j => (j, 1))⟩ sample [] (.int 1) = .ok b := by
  unfold tokenBasis
  rw [if_neg (by unfold sample; decide +kernel), if_neg (by decide)]
  unfold sparseBasis
  simp only
  rw [if_neg (by unfold sample gather; decide +kernel)]
  exact ⟨_, rfl⟩

/-- C100: the directions a basis is made from are those of the covariance matrix of the shared tokens' rows: along any vector it has the mean of the squared deviations from the mean row. -/
theorem C100_variance {d : Nat} (points : List (Fin d → ℝ)) (u : Fin d → ℝ) :
    ∑ a, ∑ b, u a * covarianceOf points a b * u b = (points.map (fun p => (∑ a, u a * (p a - (points.map (fun q => q a)).sum / points.length)) ^ 2)).sum / points.length := by
  have hc : ∀ p : Fin d → ℝ, ∀ a, (p - (points.length : ℝ)⁻¹ • points.sum) a = p a - (points.map (fun q => q a)).sum / points.length := by
    intro p a
    have : points.sum a = (points.map (fun q => q a)).sum := by
      induction points with
      | nil => rfl
      | cons x xs ih => simp [ih]
    simp [this, div_eq_inv_mul]
  have key : ∀ l : List (Fin d → ℝ), ∑ a, ∑ b, u a * ((l.map (fun p => p a * p b)).sum) * u b = (l.map (fun p => (∑ a, u a * p a) ^ 2)).sum := by
    intro l
    induction l with
    | nil => simp
    | cons p l ih =>
      simp only [List.map_cons, List.sum_cons, ← ih, mul_add, add_mul, Finset.sum_add_distrib]
      congr 1
      rw [sq, Finset.sum_mul_sum]
      exact Finset.sum_congr rfl fun a _ => Finset.sum_congr rfl fun b _ => by ring
  have : ∀ a b, u a * covarianceOf points a b * u b = u a * ((centered points).map (fun p => p a * p b)).sum * u b / points.length := by
    intro a b
    unfold covarianceOf
    ring
  simp only [this, ← Finset.sum_div]
  rw [key]
  unfold centered
  rw [List.map_map]
  congr 3
  funext p
  simp only [Function.comp_apply, hc]

example := C100_variance (d := 2) [fun a => a, fun _ => 1, fun a => 3 - a] (fun _ => 1)

end Verif.NewRows

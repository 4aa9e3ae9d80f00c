import Verif.Props.Order
import Verif.Props.Slerp
import Verif.Props.Barycenter
import Verif.Props.Stock

/-! # C105: the order of the models does not matter (methods with norms and angles) -/

namespace Verif.Sphere

open Verif.Tensor Verif.Merge

/-! ## Lemmas -/

theorem perm_two {A : Type} {a b : A} {l : List A} (h : [a, b].Perm l) : l = [a, b] ∨ l = [b, a] := by
  match l, h, h.length_eq with
  | [c, d], h, _ =>
    have hc : c ∈ [a, b] := h.mem_iff.2 (by simp)
    simp only [List.mem_cons, List.not_mem_nil, or_false] at hc
    rcases hc with rfl | rfl
    · have := (List.perm_cons c).1 h
      have := List.singleton_perm_singleton.1 this
      exact Or.inl (by rw [this])
    · have h2 : [c, a].Perm [c, d] := (List.Perm.swap _ _ _).trans h
      have := List.singleton_perm_singleton.1 ((List.perm_cons c).1 h2)
      exact Or.inr (by rw [this])

section
variable {M : Type} [DecidableEq M]

/-- Two tensors cut to a common size, in either order. -/
theorem rectify_swap (isEmbed : Bool) (x y : Tensor ℝ) : ∃ u v, rectify isEmbed [x, y] = [u, v] ∧ rectify isEmbed [y, x] = [v, u] := by
  obtain ⟨f, hf⟩ := rectify_map isEmbed [x, y]
  exact ⟨f x, f y, hf _ (List.Perm.refl _), hf _ (List.Perm.swap _ _ _)⟩

/-! ## Slerp, arcee fusion -/

/-- **C105** Slerp: which model is the base decides, not their order. -/
theorem C105_slerp (isEmbed : Bool) (b : M) (t : ℝ) (tensors tensors' : List (M × Tensor ℝ)) (h : tensors.Perm tensors')
    (hn : (tensors.map Prod.fst).Nodup) : slerpTask isEmbed b t tensors = slerpTask isEmbed b t tensors' := by
  match tensors, h, hn with
  | [], h, _ => rw [h.nil_eq]
  | [a], h, _ => rw [List.perm_singleton.1 h.symm]
  | [a, c], h, hn =>
    rcases perm_two h with rfl | rfl
    · rfl
    · simp only [List.map_cons, List.map_nil, List.nodup_cons, List.mem_cons, List.not_mem_nil, or_false] at hn
      unfold slerpTask
      simp only
      by_cases ha : a.1 = b
      · have hc : c.1 ≠ b := fun hc => hn.1 (ha.trans hc.symm)
        simp [ha, hc]
      · by_cases hc : c.1 = b
        · simp [ha, hc]
        · simp [ha, hc]
  | a :: c :: d :: rest, h, _ =>
    match tensors', h.length_eq with
    | a' :: c' :: d' :: rest', _ => rfl

/-- **C105** Arcee fusion: likewise. -/
theorem C105_arcee (sample1 sample2 : List ℝ → List ℝ) (isEmbed : Bool) (b : M) (tensors tensors' : List (M × Tensor ℝ))
    (h : tensors.Perm tensors') (hn : (tensors.map Prod.fst).Nodup) :
    arceeFusion sample1 sample2 isEmbed b tensors = arceeFusion sample1 sample2 isEmbed b tensors' := by
  match tensors, h, hn with
  | [], h, _ => rw [h.nil_eq]
  | [a], h, _ => rw [List.perm_singleton.1 h.symm]
  | [a, c], h, hn =>
    rcases perm_two h with rfl | rfl
    · rfl
    · simp only [List.map_cons, List.map_nil, List.nodup_cons, List.mem_cons, List.not_mem_nil, or_false] at hn
      unfold arceeFusion
      simp only
      by_cases ha : a.1 = b
      · have hc : c.1 ≠ b := fun hc => hn.1 (ha.trans hc.symm)
        simp [ha, hc]
      · by_cases hc : c.1 = b
        · simp [ha, hc]
        · simp [ha, hc]
  | a :: c :: d :: rest, h, _ =>
    match tensors', h.length_eq with
    | a' :: c' :: d' :: rest', _ => rfl

/-! ## NuSlerp -/

theorem nuslerp_pair (flatten rowWise : Bool) (weight : M → ℝ) (a c : M) (shape : List Nat) (x y : Nat → ℝ) (i : Nat) :
    nuslerpAt (nuslerpLine flatten rowWise shape i)
      (if |weight a + weight c| < 1 / 1000000 then 1 / 2 else weight c / (weight a + weight c)) x y i =
    nuslerpAt (nuslerpLine flatten rowWise shape i)
      (if |weight c + weight a| < 1 / 1000000 then 1 / 2 else weight a / (weight c + weight a)) y x i := by
  have h := nuslerpAt_symm (nuslerpLine flatten rowWise shape i) (share (weight a) (weight c)) x y i
  rw [← share_symm (weight a) (weight c)] at h
  exact h.symm

/-- **C105** NuSlerp, with and without base. -/
theorem C105_nuslerp (isEmbed flatten rowWise : Bool) (base : Option M) (weight : M → ℝ) (tensors tensors' : List (M × Tensor ℝ))
    (h : tensors.Perm tensors') (hn : (tensors.map Prod.fst).Nodup) :
    SameOutcome (nuslerpTask isEmbed flatten rowWise base weight tensors) (nuslerpTask isEmbed flatten rowWise base weight tensors') := by
  by_cases h1 : tensors.length = 1
  · obtain ⟨a, rfl⟩ := List.length_eq_one_iff.1 h1
    rw [List.perm_singleton.1 h.symm]
    exact .of_eq rfl
  · have h1' : tensors'.length ≠ 1 := by rw [← h.length_eq]; exact h1
    cases base with
    | none =>
      by_cases h2 : tensors.length = 2
      · obtain ⟨a, c, rfl⟩ := List.length_eq_two.1 h2
        rcases perm_two h with rfl | rfl
        · exact .of_eq rfl
        · obtain ⟨u, v, hu, hv⟩ := rectify_swap isEmbed a.2 c.2
          simp only [nuslerpTask, hu, hv]
          by_cases hs : u.shape = v.shape
          · rw [if_pos hs, if_pos hs.symm]
            refine .gives _ _ hs (fun i => ?_)
            simp only
            rw [nuslerp_pair, hs]
          · rw [if_neg hs, if_neg (fun h => hs h.symm)]
            exact .fails _ _
      · rw [(C69_count isEmbed flatten rowWise weight none tensors h1).1 rfl h2,
          (C69_count isEmbed flatten rowWise weight none tensors' h1').1 rfl (by rw [← h.length_eq]; exact h2)]
        exact .fails _ _
    | some b =>
      by_cases h3 : tensors.length = 3
      · have h3' : tensors'.length = 3 := by rw [← h.length_eq]; exact h3
        have hf := h.filter (fun e => decide (e.1 ≠ b))
        have hl := lookup_perm h hn b
        have key : ∀ l : List (M × Tensor ℝ), l.length = 3 → nuslerpTask isEmbed flatten rowWise (some b) weight l =
            (match lookup l b with
              | none => .error .key
              | some bt =>
                match l.filter (fun e => decide (e.1 ≠ b)) with
                | [a, b] =>
                  match rectify isEmbed [a.2, b.2, bt] with
                  | [x, y, z] =>
                    if x.shape = z.shape ∧ y.shape = z.shape then
                      .ok ⟨z.shape, fun i => z.get i + nuslerpAt (nuslerpLine flatten rowWise z.shape i)
                        (if |weight a.1 + weight b.1| < 1 / 1000000 then 1 / 2 else weight b.1 / (weight a.1 + weight b.1))
                        (fun j => x.get j - z.get j) (fun j => y.get j - z.get j) i⟩
                    else .error .shape
                  | _ => .error .shape
                | _ => .error .count) := by
          intro l hl
          match l, hl with
          | [a, b, c], _ => rfl
        rw [key _ h3, key _ h3', hl]
        cases lookup tensors' b with
        | none => exact .fails _ _
        | some bt =>
          simp only
          generalize tensors.filter (fun e => decide (e.1 ≠ b)) = l at hf ⊢
          generalize tensors'.filter (fun e => decide (e.1 ≠ b)) = l' at hf ⊢
          by_cases hl2 : l.length = 2
          · obtain ⟨a, c, rfl⟩ := List.length_eq_two.1 hl2
            rcases perm_two hf with rfl | rfl
            · exact .of_eq rfl
            · obtain ⟨f, hf⟩ := rectify_map isEmbed [a.2, c.2, bt]
              simp only [hf _ (List.Perm.refl _), hf _ (List.Perm.swap _ _ _), List.map_cons, List.map_nil]
              by_cases hs : (f a.2).shape = (f bt).shape ∧ (f c.2).shape = (f bt).shape
              · rw [if_pos hs, if_pos hs.symm]
                refine .gives _ _ rfl (fun i => ?_)
                simp only
                rw [nuslerp_pair]
              · rw [if_neg hs, if_neg (fun h => hs h.symm)]
                exact .fails _ _
          · have : ∀ l : List (M × Tensor ℝ), l.length ≠ 2 → (match l with
                | [a, b] =>
                  match rectify isEmbed [a.2, b.2, bt] with
                  | [x, y, z] =>
                    if x.shape = z.shape ∧ y.shape = z.shape then
                      .ok ⟨z.shape, fun i => z.get i + nuslerpAt (nuslerpLine flatten rowWise z.shape i)
                        (if |weight a.1 + weight b.1| < 1 / 1000000 then 1 / 2 else weight b.1 / (weight a.1 + weight b.1))
                        (fun j => x.get j - z.get j) (fun j => y.get j - z.get j) i⟩
                    else .error .shape
                  | _ => .error .shape
                | _ => .error .count) = (.error .count : Except Err (Tensor ℝ)) := by
              intro l hl
              match l, hl with
              | [], _ => rfl
              | [_], _ => rfl
              | [_, _], h => simp at h
              | _ :: _ :: _ :: _, _ => rfl
            rw [this l hl2, this l' (by rw [← hf.length_eq]; exact hl2)]
            exact .fails _ _
      · rw [(C69_count isEmbed flatten rowWise weight (some b) tensors h1).2 b rfl h3,
          (C69_count isEmbed flatten rowWise weight (some b) tensors' h1').2 b rfl (by rw [← h.length_eq]; exact h3)]
        exact .fails _ _

/-! ## Multislerp -/

/-- The part of multislerp after the weights and offsets are known. -/
noncomputable def afterOffsets (n : Nat) (eps : ℝ) (back : (Nat → ℝ) → Nat → ℝ) (xs : List (ℝ × (Nat → ℝ))) : Except Err (Nat → ℝ) :=
  let L := List.range n
  let unit := fun (x : Nat → ℝ) (i : Nat) => x i / (normOn L x + eps)
  let mean0 := fun i => (xs.map (fun e => unit e.2 i * e.1)).sum
  if normOn L mean0 < eps then
    match xs with
    | [a, b] => .ok (back (fun i => a.2 i * a.1 + b.2 i * b.1))
    | _ => .error .value
  else
    let mean := fun i => mean0 i / normOn L mean0
    let tangent := fun (x : Nat → ℝ) (i : Nat) => unit x i - dotOn L (unit x) mean * mean i
    let tangentResult := fun i => (xs.map (fun e => tangent e.2 i * e.1)).sum
    let tangentNorm := normOn L tangentResult + eps
    let avgNorm := (xs.map (fun e => normOn L e.2 * e.1)).sum
    .ok (back (fun i => (mean i * Real.cos tangentNorm + tangentResult i * (Real.sin tangentNorm / tangentNorm)) * avgNorm))

theorem afterOffsets_perm (n : Nat) (eps : ℝ) (back : (Nat → ℝ) → Nat → ℝ) {xs xs' : List (ℝ × (Nat → ℝ))} (hx : xs.Perm xs')
    (hxl : 2 ≤ xs.length) : afterOffsets n eps back xs = afterOffsets n eps back xs' := by
  simp only [afterOffsets]
  have h1 : ∀ i, (xs.map (fun e => e.2 i / (normOn (List.range n) e.2 + eps) * e.1)).sum =
      (xs'.map (fun e => e.2 i / (normOn (List.range n) e.2 + eps) * e.1)).sum := fun i => (hx.map _).sum_eq
  simp only [h1]
  have h2 := (hx.map (fun e => normOn (List.range n) e.2 * e.1)).sum_eq
  rw [h2]
  split
  · rcases Nat.lt_or_ge 2 xs.length with hl | hl
    · match xs, hx, hl with
      | _ :: _ :: _ :: _, hx, _ =>
        match xs', hx.length_eq with
        | _ :: _ :: _ :: _, _ => rfl
    · obtain ⟨u, v, rfl⟩ := List.length_eq_two.1 (show xs.length = 2 by omega)
      rcases perm_two hx with rfl | rfl
      · rfl
      · simp only
        congr 2
        funext i
        exact add_comm _ _
  · have h4 : ∀ (m : Nat → ℝ) i, (xs.map (fun e => (e.2 i / (normOn (List.range n) e.2 + eps) - dotOn (List.range n) (fun i => e.2 i / (normOn (List.range n) e.2 + eps))
        (fun i => m i / normOn (List.range n) m) * (m i / normOn (List.range n) m)) * e.1)).sum =
        (xs'.map (fun e => (e.2 i / (normOn (List.range n) e.2 + eps) - dotOn (List.range n) (fun i => e.2 i / (normOn (List.range n) e.2 + eps))
        (fun i => m i / normOn (List.range n) m) * (m i / normOn (List.range n) m)) * e.1)).sum := fun m i => (hx.map _).sum_eq
    simp only [h4 (fun i => (xs'.map (fun e => e.2 i / (normOn (List.range n) e.2 + eps) * e.1)).sum)]

/-- **C105** Multislerp, each tensor with its weight. -/
theorem C105_multislerp (n : Nat) (base : Option (Nat → ℝ)) (normalizeWeights : Bool) (eps : ℝ) (ts ts' : List (ℝ × (Nat → ℝ)))
    (h : ts.Perm ts') : multislerp n base normalizeWeights eps ts = multislerp n base normalizeWeights eps ts' := by
  match ts, h with
  | [], h => rw [h.nil_eq]
  | [a], h => rw [List.perm_singleton.1 h.symm]
  | a :: c :: rest, h =>
    match ts', h, h.length_eq with
    | a' :: c' :: rest', h, hlen =>
      have ht := (h.map Prod.fst).sum_eq
      cases base with
      | none =>
        have key : ∀ (a c : ℝ × (Nat → ℝ)) rest, multislerp n none normalizeWeights eps (a :: c :: rest) =
            if normalizeWeights = true ∧ ((a :: c :: rest).map Prod.fst).sum = 0 then .error .nonFinite
            else afterOffsets n eps id ((a :: c :: rest).map (fun e => ((if normalizeWeights then e.1 / ((a :: c :: rest).map Prod.fst).sum else e.1 : ℝ), e.2))) :=
          fun _ _ _ => rfl
        rw [key, key, ht]
        split
        · rfl
        · exact afterOffsets_perm n eps id (h.map _) (by simp)
      | some b =>
        have key : ∀ (a c : ℝ × (Nat → ℝ)) rest, multislerp n (some b) normalizeWeights eps (a :: c :: rest) =
            if normalizeWeights = true ∧ ((a :: c :: rest).map Prod.fst).sum = 0 then .error .nonFinite
            else afterOffsets n eps (fun x i => x i + b i) ((a :: c :: rest).map (fun e => ((if normalizeWeights then e.1 / ((a :: c :: rest).map Prod.fst).sum else e.1 : ℝ),
              fun i => e.2 i - b i))) :=
          fun _ _ _ => rfl
        rw [key, key, ht]
        split
        · rfl
        · exact afterOffsets_perm n eps _ (h.map _) (by simp)

/-! ## Model stock -/

theorem meanCos_perm (L : List Nat) {xs xs' : List (Nat → ℝ)} (h : xs.Perm xs') : stockMeanCos L xs = stockMeanCos L xs' := by
  rw [stockMeanCos_eq, stockMeanCos_eq]
  unfold meanCos
  have h1 : ∀ x, (xs.map (fun y => offsetCos L x y)).sum = (xs'.map (fun y => offsetCos L x y)).sum := fun x => (h.map _).sum_eq
  simp only [h1, h.length_eq]
  rw [(h.map (fun x => (xs'.map (fun y => offsetCos L x y)).sum)).sum_eq, (h.map (fun x => offsetCos L x x)).sum_eq]

/-- **C105** Model stock. -/
theorem C105_model_stock (isEmbed optional filterWise : Bool) (b : M) (tensors tensors' : List (M × Tensor ℝ)) (h : tensors.Perm tensors')
    (hn : (tensors.map Prod.fst).Nodup) :
    modelStock isEmbed optional filterWise b tensors = modelStock isEmbed optional filterWise b tensors' := by
  unfold modelStock
  rw [lookup_perm h hn b, h.length_eq]
  split
  · rfl
  · split
    · rfl
    · cases lookup tensors' b with
      | none => rfl
      | some bt =>
        simp only
        have hf : ((tensors.filter (fun e => decide (e.1 ≠ b))).map Prod.snd).Perm ((tensors'.filter (fun e => decide (e.1 ≠ b))).map Prod.snd) :=
          (h.filter _).map _
        generalize (tensors.filter (fun e => decide (e.1 ≠ b))).map Prod.snd = l at hf ⊢
        generalize (tensors'.filter (fun e => decide (e.1 ≠ b))).map Prod.snd = l' at hf ⊢
        obtain ⟨f, hfm⟩ := rectify_map isEmbed (bt :: l)
        rw [hfm _ (List.Perm.refl _), hfm _ (hf.cons bt)]
        simp only [List.map_cons]
        have hp := hf.map f
        generalize l.map f = ws at hp ⊢
        generalize l'.map f = ws' at hp ⊢
        rw [all_perm hp, hp.length_eq]
        have hc : ∀ i, stockMeanCos (stockLine filterWise (f bt).shape i) (ws.map (fun w => fun i => w.get i - (f bt).get i)) =
            stockMeanCos (stockLine filterWise (f bt).shape i) (ws'.map (fun w => fun i => w.get i - (f bt).get i)) :=
          fun i => meanCos_perm _ (hp.map _)
        have hsum : ∀ i, (ws.map (fun w => w.get i)).sum = (ws'.map (fun w => w.get i)).sum := fun i => (hp.map _).sum_eq
        simp only [hc, hsum]

/-! ## Karcher mean -/

omit [DecidableEq M] in
theorem karcherTask_many (isEmbed : Bool) (maxIter : Nat) (tol : ℝ) (tensors : List (M × Tensor ℝ)) (h2 : 2 ≤ tensors.length) (shape : List Nat)
    (hs : ∀ e ∈ tensors, e.2.shape = shape) :
    karcherTask isEmbed maxIter tol tensors =
      (karcherMerge shape.prod maxIter tol (tensors.map (fun e => (1 / (tensors.length : ℝ), e.2.get)))).map (fun r => ⟨shape, r⟩) := by
  match tensors, h2 with
  | a :: c :: rest, _ =>
    have hall : (((c :: rest).map Prod.snd).all (fun x => decide (x.shape = a.2.shape))) = true := by
      rw [List.all_eq_true]
      intro x hx
      obtain ⟨e, he, rfl⟩ := List.mem_map.1 hx
      apply decide_eq_true
      rw [hs e (by simp only [List.mem_cons] at he ⊢; exact Or.inr he), hs a (by simp)]
    have hk := C44_karcher_not_cut isEmbed ((a :: c :: rest).map Prod.snd)
    unfold karcherTask
    simp only [hk]
    simp only [List.map_cons] at hall ⊢
    rw [if_pos hall]
    have hn : a.2.numel = shape.prod := by unfold Tensor.numel; rw [hs a (by simp)]
    rw [hn, hs a (by simp)]
    simp only [List.map_map, List.length_cons, List.length_map, Function.comp_def]
    cases karcherMerge _ _ _ _ <;> rfl

omit [DecidableEq M] in
/-- **C105** Karcher: tensors of one shape, unless their directions cancel. -/
theorem C105_karcher_partial (isEmbed : Bool) (maxIter : Nat) (tol : ℝ) (tensors tensors' : List (M × Tensor ℝ)) (h : tensors.Perm tensors')
    (shape : List Nat) (hs : ∀ e ∈ tensors, e.2.shape = shape)
    (hd : tol ≤ normOn (List.range shape.prod)
      (meanDirection shape.prod tol (tensors.map (fun e => (1 / (tensors.length : ℝ), e.2.get))))) :
    karcherTask isEmbed maxIter tol tensors = karcherTask isEmbed maxIter tol tensors' := by
  by_cases h2 : 2 ≤ tensors.length
  · rw [karcherTask_many isEmbed maxIter tol tensors h2 shape hs,
      karcherTask_many isEmbed maxIter tol tensors' (by rw [← h.length_eq]; exact h2) shape (fun e he => hs e (h.mem_iff.2 he)), ← h.length_eq]
    rw [C71_order shape.prod maxIter tol _ _ (h.map (fun e : M × Tensor ℝ => (1 / (tensors.length : ℝ), e.2.get))) (by simpa using h2) hd]
  · match tensors, h, h2 with
    | [], h, _ => rw [h.nil_eq]
    | [a], h, _ => rw [List.perm_singleton.1 h.symm]
    | _ :: _ :: _, _, h2 => simp at h2

end

theorem dotOn_balanced (L : List Nat) (a b c : Nat → ℝ) (h : ∀ i, a i + b i + c i = 0) :
    2 * dotOn L a b = dotOn L c c - dotOn L a a - dotOn L b b := by
  unfold dotOn
  induction L with
  | nil => simp
  | cons j L ih =>
    simp only [List.map_cons, List.sum_cons]
    have hc : c j = -(a j + b j) := by linarith [h j]
    have : c j * c j = (a j + b j) * (a j + b j) := by rw [hc]; ring
    linarith

/-- Three inputs of one length whose sum is zero: the first is the result, whatever the number of iterations. -/
theorem karcher_balanced (n maxIter : Nat) (tol N : ℝ) (h0 : 0 < tol) (h1 : tol < 1) (hN : tol < N) (a b c : Nat → ℝ)
    (ha : normOn (List.range n) a = N) (hb : normOn (List.range n) b = N) (hc : normOn (List.range n) c = N)
    (h : ∀ i, a i + b i + c i = 0) :
    karcherMerge n maxIter tol [(1 / 3, a), (1 / 3, b), (1 / 3, c)] = .ok a := by
  have hNp : 0 < N := by linarith
  have hNz : N ≠ 0 := hNp.ne'
  have haa : dotOn (List.range n) a a = N * N := by rw [← normOn_mul_self, ha]
  have hbb : dotOn (List.range n) b b = N * N := by rw [← normOn_mul_self, hb]
  have hcc : dotOn (List.range n) c c = N * N := by rw [← normOn_mul_self, hc]
  have hab : dotOn (List.range n) a b = -(N * N) / 2 := by
    have := dotOn_balanced (List.range n) a b c h
    rw [haa, hbb, hcc] at this
    linarith
  have hac : dotOn (List.range n) a c = -(N * N) / 2 := by
    have := dotOn_balanced (List.range n) a c b (fun i => by linarith [h i])
    rw [haa, hbb, hcc] at this
    linarith
  have hdot : ∀ x y : Nat → ℝ, dotOn (List.range n) (fun i => x i / N) (fun i => y i / N) = dotOn (List.range n) x y / (N * N) := by
    intro x y
    have := dotOn_scale (List.range n) (1 / N) (1 / N) x y
    have e : ∀ z : Nat → ℝ, (fun i => z i / N) = fun i => 1 / N * z i := by intro z; funext i; ring
    rw [e, e, this]
    field_simp
  rw [karcherMerge_two n maxIter tol _ (by simp)]
  simp only [karcherValid, List.filter_cons, List.filter_nil, ha, hb, hc, gt_iff_lt, hN, decide_true, if_true, List.map_cons, List.map_nil,
    List.sum_cons, List.sum_nil]
  rw [if_neg (by norm_num)]
  have hmean : (fun i => 1 / 3 / (1 / 3 + (1 / 3 + (1 / 3 + 0))) * (a i / N) + (1 / 3 / (1 / 3 + (1 / 3 + (1 / 3 + 0))) * (b i / N) +
      (1 / 3 / (1 / 3 + (1 / 3 + (1 / 3 + 0))) * (c i / N) + 0))) = fun _ => (0 : ℝ) := by
    funext i
    have hci : c i = -(a i + b i) := by linarith [h i]
    rw [hci]
    ring
  rw [hmean, normOn_zero, if_pos h0]
  have harc : (2 : ℝ) / 2 < Real.arccos (-1 / 2) := by
    have : Real.arccos (-1 / 2) > Real.arccos 0 := Real.arccos_lt_arccos (by norm_num) (by norm_num) (by norm_num)
    rw [Real.arccos_zero] at this
    linarith [pi_gt']
  have hsin : 0 < Real.sin (Real.arccos (-1 / 2)) := sin_arccos_pos _ (by rw [abs_lt]; constructor <;> norm_num)
  have haa' : dotOn (List.range n) (fun i => a i / N) (fun i => a i / N) = 1 := by rw [hdot, haa]; field_simp
  have hab' : dotOn (List.range n) (fun i => a i / N) (fun i => b i / N) = -1 / 2 := by rw [hdot, hab]; field_simp
  have hac' : dotOn (List.range n) (fun i => a i / N) (fun i => c i / N) = -1 / 2 := by rw [hdot, hac]; field_simp
  have hT : karcherTangent (List.range n) tol (fun i => a i / N)
      [(1 / 3 / (1 / 3 + (1 / 3 + (1 / 3 + 0))), fun i => a i / N), (1 / 3 / (1 / 3 + (1 / 3 + (1 / 3 + 0))), fun i => b i / N),
        (1 / 3 / (1 / 3 + (1 / 3 + (1 / 3 + 0))), fun i => c i / N)] = .ok (fun _ => 0) := by
    simp only [karcherTangent, haa', hab', hac', clamp_id (-1 / 2) (by norm_num), clamp_id 1 (by norm_num), Real.arccos_one]
    rw [if_neg (not_lt.2 (by linarith)), if_neg hsin.ne']
    simp only
    rw [if_neg (not_lt.2 (by linarith)), if_neg hsin.ne']
    simp only [h0, if_true, Except.ok.injEq]
    funext i
    have hci : c i = -(a i + b i) := by linarith [h i]
    rw [hci]
    ring
  have hloop : ∀ k, karcherLoop (List.range n) tol
      [(1 / 3 / (1 / 3 + (1 / 3 + (1 / 3 + 0))), fun i => a i / N), (1 / 3 / (1 / 3 + (1 / 3 + (1 / 3 + 0))), fun i => b i / N),
        (1 / 3 / (1 / 3 + (1 / 3 + (1 / 3 + 0))), fun i => c i / N)] k (fun i => a i / N) = .ok (fun i => a i / N) := by
    intro k
    cases k with
    | zero => rfl
    | succ k => simp only [karcherLoop, hT, normOn_zero, h0, if_true]
  rw [hloop]
  simp only [Except.map, Except.ok.injEq]
  funext i
  field_simp
  ring

/-- **C105** refuted for Karcher: three models whose directions cancel - the one listed first is the result. -/
theorem C105_karcher_first (isEmbed : Bool) (maxIter : Nat) (tol : ℝ) (h0 : 0 < tol) (h1 : tol < 1) :
    ∃ x y z : Tensor ℝ, karcherTask isEmbed maxIter tol [(0, x), (1, y), (2, z)] = .ok x ∧
      karcherTask isEmbed maxIter tol [(1, y), (0, x), (2, z)] = .ok y ∧ x.get 0 = 1 ∧ y.get 0 = -1 / 2 := by
  let a : Nat → ℝ := fun i => if i = 0 then 1 else 0
  let b : Nat → ℝ := fun i => if i = 0 then -1 / 2 else if i = 1 then Real.sqrt 3 / 2 else 0
  let c : Nat → ℝ := fun i => if i = 0 then -1 / 2 else if i = 1 then -(Real.sqrt 3 / 2) else 0
  have h3 : Real.sqrt 3 * Real.sqrt 3 = 3 := Real.mul_self_sqrt (by norm_num)
  have hr : List.range 2 = [0, 1] := rfl
  have ha : normOn (List.range 2) a = 1 := by
    unfold normOn dotOn
    rw [Real.sqrt_eq_one]
    simp [hr, a]
  have hb : normOn (List.range 2) b = 1 := by
    unfold normOn dotOn
    rw [Real.sqrt_eq_one]
    simp only [hr, b, List.map_cons, List.map_nil, List.sum_cons, List.sum_nil, if_true, Nat.one_ne_zero, if_false]
    linear_combination (1 / 4) * h3
  have hc : normOn (List.range 2) c = 1 := by
    unfold normOn dotOn
    rw [Real.sqrt_eq_one]
    simp only [hr, c, List.map_cons, List.map_nil, List.sum_cons, List.sum_nil, if_true, Nat.one_ne_zero, if_false]
    linear_combination (1 / 4) * h3
  have hsum : ∀ i, a i + b i + c i = 0 := by
    intro i
    simp only [a, b, c]
    split
    · norm_num
    · split <;> ring
  refine ⟨⟨[2], a⟩, ⟨[2], b⟩, ⟨[2], c⟩, ?_, ?_, rfl, rfl⟩
  · rw [karcherTask_many (M := Nat) isEmbed maxIter tol _ (by simp) [2] (by simp)]
    have := karcher_balanced 2 maxIter tol 1 h0 h1 h1 a b c ha hb hc hsum
    simp only [List.map_cons, List.map_nil, List.length_cons, List.length_nil, List.prod_cons, List.prod_nil, mul_one]
    norm_num at this ⊢
    rw [this]
    rfl
  · rw [karcherTask_many (M := Nat) isEmbed maxIter tol _ (by simp) [2] (by simp)]
    have := karcher_balanced 2 maxIter tol 1 h0 h1 h1 b a c hb ha hc (fun i => by linarith [hsum i])
    simp only [List.map_cons, List.map_nil, List.length_cons, List.length_nil, List.prod_cons, List.prod_nil, mul_one]
    norm_num at this ⊢
    rw [this]
    rfl

end Verif.Sphere

import Verif.Props.TaskArith
import Verif.Props.Linear
import Verif.Props.Ram

/-! # C105: the order of the models does not matter (methods with field operations) -/

set_option linter.unusedSectionVars false

namespace Verif.Merge

open Verif.Tensor

/-! ## Specification -/

/-- Two attempts at a merge come out the same: both fail, or both give tensors of the same shape with the same entries. -/
inductive SameOutcome {K : Type} : Except Err (Tensor K) → Except Err (Tensor K) → Prop
  | fails (e e' : Err) : SameOutcome (.error e) (.error e')
  | gives (r r' : Tensor K) : r.shape = r'.shape → (∀ i, r.get i = r'.get i) → SameOutcome (.ok r) (.ok r')

/-! ## Lemmas -/

theorem SameOutcome.trans {K : Type} {a b c : Except Err (Tensor K)} (h : SameOutcome a b) (h' : SameOutcome b c) : SameOutcome a c := by
  cases h with
  | fails e e' => cases h' with
    | fails _ e'' => exact .fails _ _
  | gives r r' hs hg => cases h' with
    | gives _ r'' hs' hg' => exact .gives _ _ (hs.trans hs') (fun i => (hg i).trans (hg' i))

section
variable {K : Type}

theorem SameOutcome.of_eq {r r' : Except Err (Tensor K)} (h : r = r') : SameOutcome r r' := by
  subst h
  cases r with
  | error e => exact .fails e e
  | ok r => exact .gives r r rfl (fun _ => rfl)

/-- Lists of tensors, or failures, up to order. -/
inductive SameList {A : Type} : Except Err (List A) → Except Err (List A) → Prop
  | fails (e e' : Err) : SameList (.error e) (.error e')
  | gives (r r' : List A) : r.Perm r' → SameList (.ok r) (.ok r')

theorem SameList.trans {A : Type} {a b c : Except Err (List A)} (h1 : SameList a b) (h2 : SameList b c) : SameList a c := by
  cases h1 with
  | fails e e' => cases h2 with | fails _ e'' => exact .fails e e''
  | gives r r' h => cases h2 with | gives _ r'' h' => exact .gives r r'' (h.trans h')

/-- One step of a loop that collects results and stops at the first failure. -/
def collect {A B : Type} (f : A → Except Err (List B)) : List A → Except Err (List B)
  | [] => .ok []
  | a :: as =>
    match f a with
    | .error e => .error e
    | .ok bs =>
      match collect f as with
      | .error e => .error e
      | .ok bs' => .ok (bs ++ bs')

theorem collect_perm {A B : Type} (f : A → Except Err (List B)) {l l' : List A} (h : l.Perm l') :
    SameList (collect f l) (collect f l') := by
  induction h with
  | nil => exact .gives [] [] (List.Perm.refl _)
  | cons a _ ih =>
    simp only [collect]
    cases f a with
    | error e => exact .fails e e
    | ok bs =>
      simp only
      generalize collect f _ = x at ih ⊢
      generalize collect f _ = y at ih ⊢
      cases ih with
      | fails e e' => exact .fails e e'
      | gives r r' hp => exact .gives _ _ (hp.append_left bs)
  | swap a b l =>
    simp only [collect]
    cases f a with
    | error e =>
      cases f b with
      | error e' => exact .fails e' e
      | ok bs => exact .fails e e
    | ok as =>
      cases f b with
      | error e' => exact .fails e' e'
      | ok bs =>
        simp only
        cases collect f l with
        | error e => exact .fails e e
        | ok r =>
          refine .gives _ _ ?_
          rw [← List.append_assoc, ← List.append_assoc]
          exact (List.perm_append_comm).append_right r
  | trans _ _ h1 h2 => exact h1.trans h2

theorem lookup_perm {M V : Type} [DecidableEq M] {d d' : List (M × V)} (h : d.Perm d') (hn : (d.map Prod.fst).Nodup) (m : M) :
    lookup d m = lookup d' m := by
  induction h with
  | nil => rfl
  | cons a _ ih =>
    simp only [List.map_cons, List.nodup_cons] at hn
    have := ih hn.2
    unfold lookup at this ⊢
    by_cases ha : a.1 = m
    · simp [List.find?_cons, ha]
    · simpa [List.find?_cons, ha] using this
  | swap a b l =>
    simp only [List.map_cons, List.nodup_cons, List.mem_cons, not_or] at hn
    unfold lookup
    by_cases ha : a.1 = m
    · by_cases hb : b.1 = m
      · exact absurd (hb.trans ha.symm) hn.1.1
      · simp [List.find?_cons, ha, hb]
    · by_cases hb : b.1 = m
      · simp [List.find?_cons, ha, hb]
      · simp [List.find?_cons, ha, hb]
  | trans h1 _ ih1 ih2 => exact (ih1 hn).trans (ih2 ((h1.map Prod.fst).nodup_iff.1 hn))

theorem minSizes_perm {l l' : List (Tensor K)} (h : l.Perm l') (acc : Option (Nat × Nat)) : minSizes l acc = minSizes l' acc := by
  induction h generalizing acc with
  | nil => rfl
  | cons a _ ih =>
    cases acc with
    | none => exact ih _
    | some p => exact ih _
  | swap a b l =>
    have key : ∀ x y x' y' : Nat × Nat, x = x' → y = y' → x = x' := fun _ _ _ _ h _ => h
    cases acc with
    | none =>
      simp only [minSizes]
      congr 2
      ext
      · simp only; split <;> split <;> omega
      · simp only; split <;> split <;> omega
    | some p =>
      obtain ⟨p, q⟩ := p
      simp only [minSizes]
      congr 2
      ext
      · simp only; repeat' split
        all_goals omega
      · simp only; repeat' split
        all_goals omega
  | trans _ _ h1 h2 => exact (h1 acc).trans (h2 acc)

theorem all_perm {A : Type} {l l' : List A} (h : l.Perm l') (p : A → Bool) : l.all p = l'.all p := by
  rw [Bool.eq_iff_iff, List.all_eq_true, List.all_eq_true]
  exact ⟨fun hh x hx => hh x (h.mem_iff.2 hx), fun hh x hx => hh x (h.mem_iff.1 hx)⟩

theorem any_perm {A : Type} {l l' : List A} (h : l.Perm l') (p : A → Bool) : l.any p = l'.any p := by
  rw [Bool.eq_iff_iff, List.any_eq_true, List.any_eq_true]
  exact ⟨fun ⟨x, hx, hp⟩ => ⟨x, h.mem_iff.1 hx, hp⟩, fun ⟨x, hx, hp⟩ => ⟨x, h.mem_iff.2 hx, hp⟩⟩

/-- Cutting embedding matrices to a common size does the same to each, whatever their order. -/
theorem rectify_map (isEmbed : Bool) (l : List (Tensor K)) :
    ∃ f : Tensor K → Tensor K, ∀ l' : List (Tensor K), l.Perm l' → rectify isEmbed l' = l'.map f := by
  by_cases hc : (isEmbed && l.all (fun t => t.shape.length = 2)) = true
  · cases hm : minSizes l none with
    | none =>
      refine ⟨id, fun l' h => ?_⟩
      unfold rectify takeCommonSubmatrix
      rw [← all_perm h, hc, ← minSizes_perm h, hm]
      simp
    | some p =>
      by_cases ha : (l.all (fun t => t.shape = [p.1, p.2])) = true
      · refine ⟨id, fun l' h => ?_⟩
        unfold rectify takeCommonSubmatrix
        rw [← all_perm h, hc, ← minSizes_perm h, hm]
        simp only [if_true]
        rw [← all_perm h, ha]
        simp
      · refine ⟨fun t => (submatrix t p.1 p.2).getD t, fun l' h => ?_⟩
        unfold rectify takeCommonSubmatrix
        rw [← all_perm h, hc, ← minSizes_perm h, hm]
        simp only [if_true]
        rw [← all_perm h, if_neg ha]
  · refine ⟨id, fun l' h => ?_⟩
    unfold rectify
    rw [← all_perm h, if_neg hc]
    simp

/-- All of one shape, whichever comes first. -/
theorem sameShape_perm {A : Type} {a b : A} {as bs : List A} (s : A → List Nat) (h : (a :: as).Perm (b :: bs)) :
    (as.all (fun x => decide (s x = s a))) = (bs.all (fun x => decide (s x = s b))) := by
  have h1 : (as.all (fun x => decide (s x = s a))) = ((a :: as).all (fun x => decide (s x = s a))) := by simp
  have h2 : (bs.all (fun x => decide (s x = s b))) = ((b :: bs).all (fun x => decide (s x = s b))) := by simp
  rw [h1, h2, Bool.eq_iff_iff, List.all_eq_true, List.all_eq_true]
  simp only [decide_eq_true_eq]
  constructor
  · intro hh x hx
    rw [hh x (h.mem_iff.2 hx), hh b (h.mem_iff.2 (by simp))]
  · intro hh x hx
    rw [hh x (h.mem_iff.1 hx), hh a (h.mem_iff.1 (by simp))]

end

section
variable {K : Type} [Field K] [LinearOrder K] {M : Type}

/-! ## Linear -/

/-- **C105** Linear merges, including embedding matrices of different sizes and inputs that are refused. -/
theorem C105_linear (isEmbed normalize : Bool) (weight : M → K) (tensors tensors' : List (M × Tensor K)) (h : tensors.Perm tensors') :
    SameOutcome (linear isEmbed normalize weight tensors) (linear isEmbed normalize weight tensors') := by
  obtain ⟨f, hf⟩ := rectify_map isEmbed (tensors.map Prod.snd)
  unfold linear
  rw [hf _ (List.Perm.refl _), hf _ (h.map Prod.snd)]
  have hw := (h.map (fun e => weight e.1)).sum_eq
  simp only [hw]
  cases tensors with
  | nil =>
    have := h.nil_eq
    subst this
    exact .fails _ _
  | cons a as =>
    cases tensors' with
    | nil => exact absurd h.length_eq (by simp)
    | cons b bs =>
      simp only [List.map_cons]
      have hp : (f a.2 :: as.map (fun e => f e.2)).Perm (f b.2 :: bs.map (fun e => f e.2)) := h.map (fun e : M × Tensor K => f e.2)
      have hs := sameShape_perm (fun t : Tensor K => t.shape) hp
      have hg : ∀ (x : M × Tensor K) (xs : List (M × Tensor K)) (i : Nat),
          wsum ((weight x.1 :: xs.map (fun e => weight e.1)).zip (f x.2 :: (xs.map Prod.snd).map f)) i =
          ((x :: xs).map (fun e => weight e.1 * (f e.2).get i)).sum := by
        intro x xs i
        unfold wsum
        rw [List.map_map, List.zip_cons_cons, List.zip_map', List.map_cons, List.map_map]
        rfl
      have hz : ∀ i, wsum ((weight a.1 :: as.map (fun e => weight e.1)).zip (f a.2 :: (as.map Prod.snd).map f)) i =
          wsum ((weight b.1 :: bs.map (fun e => weight e.1)).zip (f b.2 :: (bs.map Prod.snd).map f)) i := by
        intro i
        rw [hg, hg]
        exact (h.map _).sum_eq
      have hs' : (((as.map Prod.snd).map f).all (fun x => decide (x.shape = (f a.2).shape))) =
          (((bs.map Prod.snd).map f).all (fun x => decide (x.shape = (f b.2).shape))) := by
        simp only [List.map_map]
        exact hs
      by_cases hall : (((as.map Prod.snd).map f).all (fun x => decide (x.shape = (f a.2).shape))) = true
      · have hshape : (f a.2).shape = (f b.2).shape := by
          rw [List.all_eq_true] at hall
          have : f b.2 ∈ f a.2 :: as.map (fun e => f e.2) := hp.mem_iff.2 (by simp)
          rcases List.mem_cons.1 this with h' | h'
          · rw [h']
          · have := hall (f b.2) (by simpa using h')
            exact (of_decide_eq_true this).symm
        rw [← hs', hall]
        simp only [if_true]
        cases normalize with
        | false => exact .gives _ _ hshape hz
        | true =>
          simp only [if_true]
          split
          · exact .fails _ _
          · exact .gives _ _ hshape (fun i => by simp only [hz])
      · rw [← hs', if_neg hall, if_neg hall]
        exact .fails _ _

/-! ## Task arithmetic and its relatives -/

section
variable [DecidableEq M]

/-- What one model contributes to the task vectors. -/
def contribution (isEmbed : Bool) (b : M) (base : Tensor K) (e : M × Tensor K) : Except Err (List (M × Tensor K)) :=
  taskVectors isEmbed b base [e]

theorem taskVectors_collect (isEmbed : Bool) (b : M) (base : Tensor K) (tensors : List (M × Tensor K)) :
    taskVectors isEmbed b base tensors = collect (contribution isEmbed b base) tensors := by
  induction tensors with
  | nil => rfl
  | cons e rest ih =>
    obtain ⟨m, x⟩ := e
    simp only [collect, contribution]
    rw [← ih]
    simp only [taskVectors]
    by_cases hm : m = b
    · rw [if_pos hm, if_pos hm]
      simp only [List.nil_append]
      cases taskVectors isEmbed b base rest <;> rfl
    · rw [if_neg hm, if_neg hm]
      by_cases hs : x.shape ≠ base.shape ∧ isEmbed = false
      · rw [if_pos hs, if_pos hs]
        simp only [List.nil_append]
        cases taskVectors isEmbed b base rest <;> rfl
      · rw [if_neg hs, if_neg hs]
        generalize (if x.shape = base.shape then some x
          else if base.shape.length = 2 then submatrix x (base.shape.getD 0 0) (base.shape.getD 1 0) else none) = o
        cases o with
        | none => rfl
        | some y =>
          simp only
          cases map2 (fun a b => a - b) y base with
          | error e => rfl
          | ok d => cases taskVectors isEmbed b base rest <;> rfl

theorem sparsifyAll_collect (sp : M → Tensor K → Except Err (Tensor K)) (ds : List (M × Tensor K)) :
    sparsifyAll sp ds = collect (fun e => sparsifyAll sp [e]) ds := by
  induction ds with
  | nil => rfl
  | cons e rest ih =>
    obtain ⟨m, x⟩ := e
    simp only [collect]
    rw [← ih]
    simp only [sparsifyAll]
    cases sp m x with
    | error e => rfl
    | ok d => cases sparsifyAll sp rest <;> rfl

theorem mix_perm (consensus : Option Consensus) (normalize : Bool) (lam : K) {es es' : List (K × K)} (h : es.Perm es') :
    mix consensus normalize lam es = mix consensus normalize lam es' := by
  have hw := h.map (fun e : K × K => e.2 * e.1)
  unfold mix
  cases consensus with
  | none =>
    simp only
    rw [hw.sum_eq, (h.map Prod.fst).sum_eq]
  | some method =>
    have hm : majority method (es.map (fun e => e.2 * e.1)) = majority method (es'.map (fun e => e.2 * e.1)) := by
      unfold majority
      cases method with
      | sum => simp only [hw.sum_eq]
      | count => simp only [(hw.map (sgn (K := K))).sum_eq]
    have h1 : ∀ xs : List (K × K), ((xs.zip (mask method (xs.map (fun e => e.2 * e.1)))).map (fun e => e.1.1 * ofBool e.2)) =
        xs.map (fun e => e.1 * ofBool (decide (sgn (e.2 * e.1) = majority method (xs.map (fun e => e.2 * e.1))))) := by
      intro xs
      unfold mask
      generalize majority method (_ : List K) = c
      rw [List.map_map]
      induction xs with
      | nil => rfl
      | cons x xs ih => simp only [List.map_cons, List.zip_cons_cons, ih, Function.comp]
    have h2 : ∀ xs : List (K × K), (((xs.map (fun e => e.2 * e.1)).zip (mask method (xs.map (fun e => e.2 * e.1)))).map
        (fun e => e.1 * (ofBool e.2 : K))) =
        xs.map (fun e => e.2 * e.1 * ofBool (decide (sgn (e.2 * e.1) = majority method (xs.map (fun e => e.2 * e.1))))) := by
      intro xs
      unfold mask
      generalize majority method (_ : List K) = c
      rw [List.map_map]
      induction xs with
      | nil => rfl
      | cons x xs ih => simp only [List.map_cons, List.zip_cons_cons, ih, Function.comp]
    simp only [h1, h2, hm]
    generalize majority method (_ : List K) = c
    have h3 := (h.map (fun e : K × K => e.1 * ofBool (decide (sgn (e.2 * e.1) = c)))).sum_eq
    have h4 := (h.map (fun e : K × K => e.2 * e.1 * ofBool (decide (sgn (e.2 * e.1) = c)))).sum_eq
    rw [h3, h4]

/-- **C105** Task arithmetic, TIES, DARE, DELLA and breadcrumbs, with any sparsification of a model's change that depends only on the model
and its change (for the random ones: with the same random choices for each model). -/
theorem C105_task_arithmetic (consensus : Option Consensus) (isEmbed normalize : Bool) (lam : K) (weight : M → K)
    (sp : M → Tensor K → Except Err (Tensor K)) (b : M) (tensors tensors' : List (M × Tensor K)) (h : tensors.Perm tensors')
    (hn : (tensors.map Prod.fst).Nodup) :
    SameOutcome (gta consensus isEmbed normalize lam weight sp b tensors) (gta consensus isEmbed normalize lam weight sp b tensors') := by
  unfold gta
  rw [lookup_perm h hn b]
  cases lookup tensors' b with
  | none => exact .fails _ _
  | some base =>
    simp only
    have ht := collect_perm (contribution isEmbed b base) h
    rw [← taskVectors_collect, ← taskVectors_collect] at ht
    generalize taskVectors isEmbed b base tensors = x at ht ⊢
    generalize taskVectors isEmbed b base tensors' = y at ht ⊢
    cases ht with
    | fails e e' => exact .fails _ _
    | gives r r' hp =>
      cases r with
      | nil =>
        have := hp.nil_eq
        subst this
        exact .gives _ _ rfl (fun _ => rfl)
      | cons a as =>
        cases r' with
        | nil => exact absurd hp.length_eq (by simp)
        | cons a' as' =>
          simp only
          have hs := collect_perm (fun e => sparsifyAll sp [e]) hp
          rw [← sparsifyAll_collect, ← sparsifyAll_collect] at hs
          generalize sparsifyAll sp (a :: as) = x at hs ⊢
          generalize sparsifyAll sp (a' :: as') = y at hs ⊢
          cases hs with
          | fails e e' => exact .fails _ _
          | gives ds ds' hd => exact .gives _ _ rfl (fun i => by simp only; rw [mix_perm consensus normalize lam (hd.map _)])

end

/-! ## RAM -/

theorem subtractAll_collect (base : Tensor K) (ts : List (Tensor K)) :
    subtractAll base ts = collect (fun t => subtractAll base [t]) ts := by
  induction ts with
  | nil => rfl
  | cons t rest ih =>
    simp only [collect]
    rw [← ih]
    simp only [subtractAll]
    cases map2 (fun a b => a - b) t base with
    | error e => rfl
    | ok d => cases subtractAll base rest <;> rfl

theorem contrib_perm (epsilon : K) {xs xs' : List K} (h : xs.Perm xs') : contrib epsilon xs = contrib epsilon xs' := h.countP_eq _

/-- **C105** RAM. -/
theorem C105_ram (tensors tensors' : List (Tensor K)) (base : Tensor K) (epsilon : K) (h : tensors.Perm tensors') :
    SameOutcome (ram tensors base epsilon) (ram tensors' base epsilon) := by
  unfold ram
  cases tensors with
  | nil =>
    have := h.nil_eq
    subst this
    exact .of_eq rfl
  | cons a as =>
    cases tensors' with
    | nil => exact absurd h.length_eq (by simp)
    | cons a' as' =>
      simp only
      have hs := collect_perm (fun t => subtractAll base [t]) h
      rw [← subtractAll_collect, ← subtractAll_collect] at hs
      generalize subtractAll base (a :: as) = x at hs ⊢
      generalize subtractAll base (a' :: as') = y at hs ⊢
      cases hs with
      | fails e e' => exact .fails _ _
      | gives ds ds' hd =>
        refine .gives _ _ rfl (fun i => ?_)
        have hx := hd.map (fun d : Tensor K => d.get i)
        simp only [contrib_perm epsilon hx]
        rw [(hx.map _).sum_eq]

theorem countEntries_perm (epsilon : K) {ds ds' : List (Tensor K)} (h : ds.Perm ds') (p : Nat → Bool) (n : Nat) (d : Tensor K) :
    countEntries epsilon ds p n d = countEntries epsilon ds' p n d := by
  unfold countEntries
  simp only [contrib_perm epsilon (h.map _)]

/-- **C105** RAM+. -/
theorem C105_ramplus (tensors tensors' : List (Tensor K)) (base : Tensor K) (r alpha epsilon : K) (h : tensors.Perm tensors') :
    SameOutcome (ramPlus tensors base r alpha epsilon) (ramPlus tensors' base r alpha epsilon) := by
  unfold ramPlus
  cases tensors with
  | nil =>
    have := h.nil_eq
    subst this
    exact .of_eq rfl
  | cons a as =>
    cases tensors' with
    | nil => exact absurd h.length_eq (by simp)
    | cons a' as' =>
      simp only
      have hs := collect_perm (fun t => subtractAll base [t]) h
      rw [← subtractAll_collect, ← subtractAll_collect] at hs
      generalize subtractAll base (a :: as) = x at hs ⊢
      generalize subtractAll base (a' :: as') = y at hs ⊢
      cases hs with
      | fails e e' => exact .fails _ _
      | gives ds ds' hd =>
        have hu : ramUndefined epsilon ds = ramUndefined epsilon ds' := by
          funext n d
          unfold ramUndefined
          simp only [countEntries_perm epsilon hd]
        have hl : ramLambda r alpha epsilon ds = ramLambda r alpha epsilon ds' := by
          funext n d
          unfold ramLambda
          simp only [countEntries_perm epsilon hd]
        simp only [hu, hl]
        rw [any_perm hd]
        split
        · exact .fails _ _
        · refine .gives _ _ rfl (fun i => ?_)
          simp only [contrib_perm epsilon (hd.map (fun d : Tensor K => d.get i))]
          rw [(hd.map _).sum_eq]

/-! ## SCE -/

variable [FloorRing K]

theorem variance_perm {xs xs' : List K} (h : xs.Perm xs') : variance xs = variance xs' := by
  unfold variance
  simp only [h.sum_eq, h.length_eq]
  rw [(h.map _).sum_eq]

theorem sceMask_perm (topk : (Nat → K) → Nat → List Nat) {ds ds' : List (Tensor K)} (h : ds.Perm ds') (n : Nat) (density : K) :
    sceMask topk ds n density = sceMask topk ds' n density := by
  unfold sceMask
  simp only [variance_perm (h.map _)]

theorem sceEntry_pairs {A : Type} (w x : A → K) (as : List A) : sceEntry (as.map w) (as.map x) =
    (as.map (fun a => x a * (w a * ofBool (decide (sgn (x a) = majority .sum (as.map x)))))).sum /
      max (as.map (fun a => w a * ofBool (decide (sgn (x a) = majority .sum (as.map x))))).sum (1 / 1000000) := by
  have h1 : ∀ c : K, (((as.map w).zip ((as.map x).map (fun d => decide (sgn d = c)))).map (fun e => e.1 * (ofBool e.2 : K))) =
      as.map (fun a => w a * ofBool (decide (sgn (x a) = c))) := by
    intro c
    induction as with
    | nil => rfl
    | cons a as ih => simp only [List.map_cons, List.zip_cons_cons, ih]
  have h2 : ∀ g : A → K, ((as.map x).zip (as.map g)).map (fun e => e.1 * e.2) = as.map (fun a => x a * g a) := by
    intro g
    rw [List.zip_map', List.map_map]
    rfl
  unfold sceEntry mask
  simp only [h1, h2]

theorem sceWeights_map (n : Nat) (ds : List (Tensor K)) : ∃ g : Tensor K → K, ∀ ds' : List (Tensor K), ds.Perm ds' →
    sceWeights ds' n = ds'.map g := by
  unfold sceWeights
  by_cases hc : |(ds.map (fun d => ((List.range n).map (fun i => d.get i * d.get i)).sum / (n : K))).sum| < 1 / 1000000
  · refine ⟨fun _ => 1 / (ds.length : K), fun ds' h => ?_⟩
    simp only
    rw [← (h.map _).sum_eq, if_pos hc, h.length_eq]
  · refine ⟨fun d => ((List.range n).map (fun i => d.get i * d.get i)).sum / (n : K) /
      (ds.map (fun d => ((List.range n).map (fun i => d.get i * d.get i)).sum / (n : K))).sum, fun ds' h => ?_⟩
    simp only
    rw [← (h.map _).sum_eq, if_neg hc, List.map_map]
    rfl

theorem scePlain_perm (base : Tensor K) (sel : Nat → Bool) {ds ds' : List (Tensor K)} (h : ds.Perm ds') (i : Nat) :
    sceEntry (sceWeights (ds.map (fun d => (⟨d.shape, fun i => d.get i * ofBool (sel i)⟩ : Tensor K))) base.numel)
        ((ds.map (fun d => (⟨d.shape, fun i => d.get i * ofBool (sel i)⟩ : Tensor K))).map (fun d => d.get i)) =
      sceEntry (sceWeights (ds'.map (fun d => (⟨d.shape, fun i => d.get i * ofBool (sel i)⟩ : Tensor K))) base.numel)
        ((ds'.map (fun d => (⟨d.shape, fun i => d.get i * ofBool (sel i)⟩ : Tensor K))).map (fun d => d.get i)) := by
  have hm := h.map (fun d => (⟨d.shape, fun i => d.get i * ofBool (sel i)⟩ : Tensor K))
  obtain ⟨g, hg⟩ := sceWeights_map base.numel (ds.map (fun d => (⟨d.shape, fun i => d.get i * ofBool (sel i)⟩ : Tensor K)))
  rw [hg _ (List.Perm.refl _), hg _ hm, sceEntry_pairs, sceEntry_pairs]
  have hmaj : ∀ (l l' : List K), l.Perm l' → majority .sum l = majority .sum l' := by
    intro l l' hl
    unfold majority
    simp only [hl.sum_eq]
  rw [hmaj _ _ (hm.map (fun d => d.get i))]
  rw [(hm.map _).sum_eq, (hm.map (fun a => g a * _)).sum_eq]

/-- **C105** SCE, also where its result has the wrong shape (C45). -/
theorem C105_sce (topk : (Nat → K) → Nat → List Nat) (tensors tensors' : List (Tensor K)) (base : Tensor K) (select : K)
    (h : tensors.Perm tensors') : SameOutcome (sce topk tensors base select) (sce topk tensors' base select) := by
  unfold sce
  cases tensors with
  | nil =>
    have := h.nil_eq
    subst this
    exact .of_eq rfl
  | cons a as =>
    cases tensors' with
    | nil => exact absurd h.length_eq (by simp)
    | cons a' as' =>
      simp only
      have hs := collect_perm (fun t => subtractAll base [t]) h
      rw [← subtractAll_collect, ← subtractAll_collect] at hs
      generalize subtractAll base (a :: as) = x at hs ⊢
      generalize subtractAll base (a' :: as') = y at hs ⊢
      cases hs with
      | fails e e' => exact .fails _ _
      | gives ds ds' hd =>
        simp only
        by_cases hc : select < 1
        · rw [if_pos hc, if_pos hc, ← sceMask_perm topk hd]
          cases hmk : sceMask topk ds base.numel select with
          | stackZeros => exact .gives _ _ (by simp only [hd.length_eq]) (fun i => by simp only [mul_zero])
          | stackOnes =>
            unfold sceMask at hmk
            split at hmk
            · cases hmk
            · rw [if_neg (not_le.2 hc)] at hmk
              simp only at hmk
              split at hmk <;> cases hmk
          | entries sel => exact .gives _ _ rfl (fun i => by simp only [scePlain_perm base sel hd])
        · rw [if_neg hc, if_neg hc]
          exact .gives _ _ rfl (fun i => by simp only [scePlain_perm base _ hd])

end

/-! ## Methods defined by the decorator -/

theorem forall₂_zip_eq {A B C : Type} (f : A → Option B) (g : A → Option C) {as : List A} {bs : List B} {cs : List C}
    (h1 : List.Forall₂ (fun a b => f a = some b) as bs) (h2 : List.Forall₂ (fun a c => g a = some c) as cs) :
    bs.zip cs = as.filterMap (fun a => (f a).bind (fun b => (g a).map (fun c => (b, c)))) := by
  induction h1 generalizing cs with
  | nil => cases h2; rfl
  | cons hb _ ih =>
    cases h2 with
    | cons hc hcs => simp [hb, hc, ih hcs]

theorem zip_fst {A B C : Type} (f : A → Option B) (g : A → Option C) {as : List A} {bs : List B} {cs : List C}
    (h1 : List.Forall₂ (fun a b => f a = some b) as bs) (h2 : List.Forall₂ (fun a c => g a = some c) as cs) :
    (bs.zip cs).map Prod.fst = bs := by
  rw [List.map_fst_zip]
  rw [← h1.length_eq, ← h2.length_eq]

section
variable {M V P : Type} [DecidableEq M]

/-- **C105** The tensors of a method defined by the decorator come in the iteration order of a set (C48).  Whatever that order is, the method
gets the same base tensor and the same pairs of tensor and parameter value, up to order. -/
theorem C105_decorator (sig : Signature) (order order' : List M) (baseModel : Option M) (tensors : List (M × V)) (param : M → Option P)
    (hkeys : order.Perm (tensors.map Prod.fst)) (hkeys' : order'.Perm (tensors.map Prod.fst)) (hnodup : (tensors.map Prod.fst).Nodup)
    (hparam : ∀ m ∈ order, (param m).isSome)
    (hreq : sig.useBase = true → sig.requireBase = true → ∃ b, baseModel = some b ∧ b ∈ order) :
    ∃ ms ts bt ps ms' ts' ps', easyExecute sig order baseModel tensors param = .ok (ms, ts, bt, ps) ∧
      easyExecute sig order' baseModel tensors param = .ok (ms', ts', bt, ps') ∧ (ts.zip ps).Perm (ts'.zip ps') ∧ ts.Perm ts' := by
  have hoo : ∀ m, m ∈ order ↔ m ∈ order' := fun m => by rw [hkeys.mem_iff, hkeys'.mem_iff]
  obtain ⟨ms, ts, bt, ps, h1, h2, h3, h4, h5⟩ := C48_aligned sig order baseModel tensors param hkeys hnodup hparam hreq
  obtain ⟨ms', ts', bt', ps', h1', h2', h3', h4', h5'⟩ := C48_aligned sig order' baseModel tensors param hkeys' hnodup
    (fun m hm => hparam m ((hoo m).2 hm)) (fun a b => by obtain ⟨x, hx, hm⟩ := hreq a b; exact ⟨x, hx, (hoo x).1 hm⟩)
  have hb : bt = bt' := by
    cases hu : sig.useBase with
    | true => rw [(h4 hu).1, (h4' hu).1]
    | false => rw [(h5 hu).1, (h5' hu).1]
  have hms : ms.Perm ms' := by
    cases hu : sig.useBase with
    | true => exact (h4 hu).2.trans (h4' hu).2.symm
    | false => exact (h5 hu).2.1.trans (h5' hu).2.1.symm
  subst hb
  have hz : (ts.zip ps).Perm (ts'.zip ps') := by
    rw [forall₂_zip_eq _ _ h2 h3, forall₂_zip_eq _ _ h2' h3']
    exact hms.filterMap _
  refine ⟨ms, ts, bt, ps, ms', ts', ps', h1, h1', hz, ?_⟩
  have := hz.map Prod.fst
  rwa [zip_fst _ _ h2 h3, zip_fst _ _ h2' h3'] at this

end

/-! ## Examples -/

/-- Three models, in another order: TIES gives the same. -/
example : SameOutcome
    (gta (some .sum) false true (1 : ℚ) (fun m => (m : ℚ)) (fun _ d => .ok d) 0 [(0, ⟨[1], fun _ => 1⟩), (1, ⟨[1], fun _ => 3⟩), (2, ⟨[1], fun _ => 0⟩)])
    (gta (some .sum) false true (1 : ℚ) (fun m => (m : ℚ)) (fun _ d => .ok d) 0 [(2, ⟨[1], fun _ => 0⟩), (0, ⟨[1], fun _ => 1⟩), (1, ⟨[1], fun _ => 3⟩)]) :=
  C105_task_arithmetic _ _ _ _ _ _ _ _ _ (List.perm_append_comm (l₁ := [(0, _), (1, _)]) (l₂ := [(2, _)])) (by decide)

/-- Embedding matrices of different sizes. -/
example : SameOutcome
    (linear true true (fun m : Nat => (m : ℚ)) [(1, ⟨[3, 2], fun i => i⟩), (2, ⟨[2, 2], fun _ => 0⟩)])
    (linear true true (fun m : Nat => (m : ℚ)) [(2, ⟨[2, 2], fun _ => 0⟩), (1, ⟨[3, 2], fun i => i⟩)]) :=
  C105_linear _ _ _ _ _ (List.Perm.swap _ _ _)

/-- Two iteration orders of a set of three models with a base. -/
example : ∃ ms ts bt ps ms' ts' ps', easyExecute ⟨true, true, true⟩ [2, 0, 1] (some 0) [(0, 'a'), (1, 'b'), (2, 'c')] (fun m => some m) = .ok (ms, ts, bt, ps) ∧
    easyExecute ⟨true, true, true⟩ [1, 2, 0] (some 0) [(0, 'a'), (1, 'b'), (2, 'c')] (fun m => some m) = .ok (ms', ts', bt, ps') ∧
    (ts.zip ps).Perm (ts'.zip ps') ∧ ts.Perm ts' :=
  C105_decorator _ _ _ _ _ _ (by decide) (by decide) (by decide) (by decide) (by decide)

example (topk : (Nat → ℚ) → Nat → List Nat) : SameOutcome (sce topk [⟨[1], fun _ => 2⟩, ⟨[1], fun _ => 5⟩] ⟨[1], fun _ => 1⟩ (1 / 2))
    (sce topk [⟨[1], fun _ => 5⟩, ⟨[1], fun _ => 2⟩] ⟨[1], fun _ => 1⟩ (1 / 2)) :=
  C105_sce _ _ _ _ _ (List.Perm.swap _ _ _)

end Verif.Merge

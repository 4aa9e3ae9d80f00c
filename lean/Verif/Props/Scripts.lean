import Verif.Model.Scripts
import Mathlib.Data.Rat.Floor
import Mathlib.Algebra.Order.Field.Rat
import Mathlib.Tactic.Linarith
import Mathlib.Tactic.Common

/-! # Layer shuffles and legacy options (C65, C77, C78) -/

set_option linter.unusedSectionVars false

namespace Verif.Scripts

open Verif.ModelRef (Str)

variable {M K : Type} [Field K] [LinearOrder K] [FloorRing K] [IsStrictOrderedRing K]

/-! ## Choosing a model by weight -/

theorem cumulative_length (acc : K) (ws : List K) : (cumulative acc ws).length = ws.length := by
  induction ws generalizing acc with
  | nil => rfl
  | cons w ws ih => simp [cumulative, ih]

theorem bisect_lt (x : K) (cs : List K) (h : cs ≠ []) : bisect x cs < cs.length := by
  induction cs with
  | nil => exact absurd rfl h
  | cons c cs ih =>
    cases cs with
    | nil => simp [bisect]
    | cons c' cs =>
      rw [bisect]
      have := ih (by simp)
      split
      · simp
      · simp only [List.length_cons] at this ⊢; omega

/-- Where the number falls, the weight is positive. -/
theorem bisect_positive (ws : List K) (acc x : K) (h0 : acc ≤ x) (h1 : x < (cumulative acc ws).getLast?.getD acc) :
    ∃ w, ws[bisect x (cumulative acc ws)]? = some w ∧ 0 < w := by
  induction ws generalizing acc with
  | nil => simp only [cumulative, List.getLast?_nil, Option.getD_none] at h1; exact absurd h1 (not_lt.mpr h0)
  | cons w ws ih =>
    cases ws with
    | nil =>
      simp only [cumulative, List.getLast?_singleton, Option.getD_some] at h1
      exact ⟨w, by simp [cumulative, bisect], by linarith⟩
    | cons w' ws =>
      rw [cumulative, cumulative, bisect]
      split
      · rename_i hx
        exact ⟨w, rfl, by linarith⟩
      · rename_i hx
        have h1' : x < (cumulative (acc + w) (w' :: ws)).getLast?.getD (acc + w) := by
          rw [cumulative, cumulative, List.getLast?_cons_cons] at h1
          rw [cumulative]
          cases hl : ((acc + w + w') :: cumulative (acc + w + w') ws).getLast? with
          | none => simp at hl
          | some v => rw [hl] at h1; exact h1
        obtain ⟨v, hv, hp⟩ := ih (acc + w) (not_lt.mp hx) h1'
        exact ⟨v, by rw [List.getElem?_cons_succ]; exact hv, hp⟩

/-- The model chosen is one with a positive weight. -/
def Weighted (models : List M) (weights : List K) (m : M) : Prop :=
  ∃ (i : Nat) (w : K), models[i]? = some m ∧ weights[i]? = some w ∧ 0 < w

theorem choose_weighted {models : List M} {weights : List K} {r : K} {m : M} (hr : 0 ≤ r ∧ r < 1) (h : choose models weights r = .ok m) :
    Weighted models weights m := by
  rw [choose] at h
  split at h
  · exact absurd h (by simp)
  · simp only [] at h
    split at h
    · exact absurd h (by simp)
    · rename_i hl ht
      rw [not_le] at ht
      split at h
      · rename_i m' hm
        cases h
        have hx0 : (0 : K) ≤ r * (cumulative 0 weights).getLast?.getD 0 := mul_nonneg hr.1 ht.le
        have hx1 : r * (cumulative 0 weights).getLast?.getD 0 < (cumulative 0 weights).getLast?.getD 0 := by nlinarith [hr.2]
        obtain ⟨w, hw, hp⟩ := bisect_positive weights 0 _ hx0 hx1
        exact ⟨_, w, hm, hw, hp⟩
      · exact absurd h (by simp)

theorem choose_total {models : List M} {weights : List K} (r : K) (hl : weights.length = models.length)
    (ht : 0 < (cumulative 0 weights).getLast?.getD 0) : ∃ m, choose models weights r = .ok m := by
  rw [choose, if_neg (by simp [hl])]
  simp only
  rw [if_neg (not_le.mpr ht)]
  have hne : cumulative 0 weights ≠ [] := by
    intro h; rw [h] at ht; simp at ht
  have hb := bisect_lt (r * (cumulative 0 weights).getLast?.getD 0) _ hne
  rw [cumulative_length, hl] at hb
  rw [List.getElem?_eq_getElem hb]
  exact ⟨_, rfl⟩

theorem cumulative_last (acc : K) (ws : List K) : (cumulative acc ws).getLast?.getD acc = acc + ws.sum := by
  induction ws generalizing acc with
  | nil => simp [cumulative]
  | cons w ws ih =>
    rw [cumulative, List.sum_cons, ← add_assoc, ← ih (acc + w)]
    cases hc : cumulative (acc + w) ws with
    | nil => simp
    | cons c cs => rw [List.getLast?_cons_cons]; cases hl : (c :: cs).getLast? with
      | none => simp at hl
      | some v => rfl

/-! ## Shuffling -/

/-- The layers of the result: which layer of which model, in order. -/
def layersOf (slices : List (Slice M)) : List (M × Nat) := slices.flatMap (fun s => (List.range' s.start (s.stop - s.start)).map (fun l => (s.model, l)))

theorem layersOf_addLayer (rev : List (Slice M)) (m : M) (i : Nat) :
    layersOf (addLayer rev m i).reverse = layersOf rev.reverse ++ [(m, i)] := by
  cases rev with
  | nil => simp [addLayer, layersOf]
  | cons s rest => simp [addLayer, equalsText, layersOf]

theorem shuffleFrom_ok {models : List M} {weights : List K} {r : Nat → K} (hr : ∀ i, 0 ≤ r i ∧ r i < 1) (k : Nat) {rev : List (Slice M)} {i : Nat}
    {out : List (Slice M)} (h : shuffleFrom models weights r rev i k = .ok out) :
    ∃ ms : List M, ms.length = k ∧ (∀ m ∈ ms, Weighted models weights m) ∧ layersOf out = layersOf rev.reverse ++ ms.zip (List.range' i k) := by
  induction k generalizing rev i with
  | zero => cases h; exact ⟨[], rfl, by simp, by simp⟩
  | succ k ih =>
    rw [shuffleFrom] at h
    cases hc : choose models weights (r i) with
    | error e => rw [hc] at h; exact absurd h (by simp)
    | ok m =>
      rw [hc] at h
      obtain ⟨ms, hl, hw, ho⟩ := ih h
      refine ⟨m :: ms, by simp [hl], ?_, ?_⟩
      · intro x hx
        rcases List.mem_cons.mp hx with rfl | hx
        · exact choose_weighted (hr i) hc
        · exact hw x hx
      · rw [ho, layersOf_addLayer, List.append_assoc]; rfl

theorem shuffleFrom_total {models : List M} {weights : List K} (r : Nat → K) (hl : weights.length = models.length) (ht : 0 < weights.sum) (k : Nat)
    (rev : List (Slice M)) (i : Nat) : ∃ out, shuffleFrom models weights r rev i k = .ok out := by
  induction k generalizing rev i with
  | zero => exact ⟨_, rfl⟩
  | succ k ih =>
    obtain ⟨m, hm⟩ := choose_total (r i) hl (by rw [cumulative_last, zero_add]; exact ht)
    rw [shuffleFrom, hm]
    exact ih _ _

theorem shuffleFrom_refused {models : List M} {weights : List K} (r : Nat → K) (h : weights.length ≠ models.length ∨ weights.sum ≤ 0) (k : Nat)
    (rev : List (Slice M)) (i : Nat) : shuffleFrom models weights r rev i (k + 1) = .error .value := by
  have hc : choose models weights (r i) = .error .value := by
    rw [choose]
    split
    · rfl
    · rename_i hl
      simp only
      rw [cumulative_last, zero_add, if_pos]
      rcases h with h | h
      · exact absurd h hl
      · exact h
  rw [shuffleFrom, hc]

/-- C65: what comes out of a shuffle has as many layers as the first model; layer `i` of it is layer `i` of one of the models given, one with a
positive weight. -/
theorem C65_layers {models : List M} {layers : M → Nat} {weights : List K} {r : Nat → K} {m0 : M} {out : List (Slice M)}
    (hr : ∀ i, 0 ≤ r i ∧ r i < 1) (h0 : models.head? = some m0) (h : shuffle models layers weights r = .ok out) :
    (layersOf out).length = layers m0 ∧
      ∀ i (m : M) (l : Nat), (layersOf out)[i]? = some (m, l) → l = i ∧ Weighted models weights m := by
  cases models with
  | nil => exact absurd h0 (by simp)
  | cons m1 rest =>
    cases h0
    rw [shuffle] at h
    obtain ⟨ms, hl, hw, ho⟩ := shuffleFrom_ok hr _ h
    have ho' : layersOf out = ms.zip (List.range' 0 (layers m0)) := by rw [ho]; simp [layersOf]
    refine ⟨by rw [ho']; simp [hl], ?_⟩
    intro i m l hi
    rw [ho', List.getElem?_zip_eq_some] at hi
    obtain ⟨hm, hi'⟩ := hi
    obtain ⟨_, hi''⟩ := List.getElem?_eq_some_iff.mp hi'
    rw [List.getElem_range'] at hi''
    exact ⟨by simp only at hi''; omega, hw m (List.mem_of_getElem? hm)⟩

theorem shuffleFrom_single {models : List M} {weights : List K} {r : Nat → K} (k : Nat) {rev : List (Slice M)} {i : Nat} {out : List (Slice M)}
    (hrev : ∀ s ∈ rev, s.stop = s.start + 1) (h : shuffleFrom models weights r rev i k = .ok out) : ∀ s ∈ out, s.stop = s.start + 1 := by
  induction k generalizing rev i with
  | zero => cases h; intro s hs; exact hrev s (List.mem_reverse.mp hs)
  | succ k ih =>
    rw [shuffleFrom] at h
    cases hc : choose models weights (r i) with
    | error e => rw [hc] at h; exact absurd h (by simp)
    | ok m =>
      rw [hc] at h
      refine ih ?_ h
      intro s hs
      cases rev with
      | nil => simp only [addLayer, List.mem_singleton] at hs; rw [hs]
      | cons l rest =>
        simp only [addLayer, equalsText, Bool.false_eq_true, if_false, List.mem_cons] at hs
        rcases hs with rfl | hs
        · rfl
        · exact hrev s (List.mem_cons.mpr hs)

/-- C65: each slice of a shuffle is a single layer. -/
theorem C65_slices {models : List M} {layers : M → Nat} {weights : List K} {r : Nat → K} {out : List (Slice M)}
    (h : shuffle models layers weights r = .ok out) : ∀ s ∈ out, s.stop = s.start + 1 := by
  cases models with
  | nil => exact absurd h (by simp [shuffle])
  | cons m0 rest => exact shuffleFrom_single _ (by simp) h

/-- C65: a shuffle goes through exactly if there is a weight for each model and the weights have a positive sum (if the first model has layers at
all). -/
theorem C65_accepted {models : List M} {layers : M → Nat} {weights : List K} {r : Nat → K} {m0 : M} (h0 : models.head? = some m0)
    (hn : 0 < layers m0) :
    (∃ out, shuffle models layers weights r = .ok out) ↔ weights.length = models.length ∧ 0 < weights.sum := by
  cases models with
  | nil => exact absurd h0 (by simp)
  | cons m1 rest =>
    cases h0
    rw [shuffle]
    obtain ⟨k, hk⟩ : ∃ k, layers m0 = k + 1 := ⟨layers m0 - 1, by omega⟩
    rw [hk]
    constructor
    · rintro ⟨out, h⟩
      by_contra hc
      rw [not_and_or, not_lt] at hc
      rw [shuffleFrom_refused r hc] at h
      exact absurd h (by simp)
    · rintro ⟨hl, ht⟩
      exact shuffleFrom_total r hl ht _ _ _

/-- Two models of three layers, weights 1 and 3. -/
example : (shuffle [10, 20] (fun _ => 3) [(1 : ℚ), 3] (fun i => if i = 1 then 1 / 8 else 1 / 2)).map layersOf = .ok [(20, 0), (10, 1), (20, 2)] := by
  decide +kernel

example : shuffle [10, 20] (fun _ => 3) ([] : List ℚ) (fun _ => 1 / 2) = .error .value := by decide +kernel

/-- A model of weight zero is not taken. -/
example : Weighted [10, 20] [(0 : ℚ), 3] 20 ∧ ¬ Weighted [10, 20] [(0 : ℚ), 3] 10 := by
  refine ⟨⟨1, 3, rfl, rfl, by norm_num⟩, ?_⟩
  rintro ⟨i, w, hm, hw, hp⟩
  rcases i with _ | _ | i
  · cases hw; exact absurd hp (by norm_num)
  · cases hm
  · simp at hm

/-! ## Random layers -/

/-- The range a random layer is drawn from. -/
def drawn (layers : M → Nat) (m : M) (f : K) : Nat := intCount (layers m * f)

theorem randomFrom_mem {layers : M → Nat} {draw : Nat → Nat → Nat} {ms : List M} {fs : List K} {i : Nat} {s : Slice M}
    (h : s ∈ randomFrom layers draw i ms fs) :
    ∃ (j : Nat) (m : M) (f : K) (c : Nat), ms[j]? = some m ∧ fs[j]? = some f ∧ c < drawn layers m f ∧
      s = { model := m, start := draw (i + j) c, stop := draw (i + j) c + 1 } := by
  induction ms generalizing fs i with
  | nil => cases fs <;> simp [randomFrom] at h
  | cons m ms ih =>
    cases fs with
    | nil => simp [randomFrom] at h
    | cons f fs =>
      rw [randomFrom, List.mem_append] at h
      rcases h with h | h
      · rw [randomSlices, List.mem_map] at h
        obtain ⟨c, hc, rfl⟩ := h
        exact ⟨0, m, f, c, rfl, rfl, List.mem_range.mp hc, rfl⟩
      · obtain ⟨j, m', f', c, hm, hf, hc, hs⟩ := ih h
        exact ⟨j + 1, m', f', c, hm, hf, hc, by rw [hs, Nat.add_assoc, Nat.add_comm 1 j]⟩

theorem randomFrom_length (layers : M → Nat) (draw : Nat → Nat → Nat) (ms : List M) (fs : List K) (i : Nat) :
    (randomFrom layers draw i ms fs).length = ((ms.zip fs).map (fun p => drawn layers p.1 p.2)).sum := by
  induction ms generalizing fs i with
  | nil => cases fs <;> rfl
  | cons m ms ih =>
    cases fs with
    | nil => rfl
    | cons f fs => simp [randomFrom, randomSlices, drawn, ih]

/-- `random.randrange(0, k)` for each model: below the number of layers taken from that model. -/
def Drawn (layers : M → Nat) (models : List M) (weights : List K) (draw : Nat → Nat → Nat) : Prop :=
  ∀ (i : Nat) (m : M) (f : K), models[i]? = some m → weights[i]? = some f → ∀ j, 0 < drawn layers m f → draw i j < drawn layers m f

/-- C65, `--full-random`: the result has, in some order, for each model with a weight as many single layers as the weight times its number of
layers (decimals cut off). -/
theorem C65_random_count {models : List M} {layers : M → Nat} {weights : List K} {draw : Nat → Nat → Nat} {mix : List (Slice M) → List (Slice M)}
    {out : List (Slice M)} (hmix : ∀ l, (mix l).Perm l) (h : fullRandom models layers weights draw mix = .ok out) :
    out.length = ((models.zip weights).map (fun p => (⌊(layers p.1 : K) * p.2⌋).toNat)).sum ∧
      ∀ s ∈ out, s.stop = s.start + 1 ∧ s.model ∈ models := by
  cases models with
  | nil => exact absurd h (by simp [fullRandom])
  | cons m ms =>
    cases h
    refine ⟨by rw [(hmix _).length_eq, randomFrom_length]; rfl, ?_⟩
    intro s hs
    obtain ⟨j, m', f, c, hm, _, _, rfl⟩ := randomFrom_mem ((hmix _).mem_iff.mp hs)
    exact ⟨rfl, List.mem_of_getElem? hm⟩

/-- C77, refuted: with a weight below one, the last layers of a model are out of reach, whatever is drawn. -/
theorem C77_out_of_reach {models : List M} {layers : M → Nat} {weights : List K} {draw : Nat → Nat → Nat} {mix : List (Slice M) → List (Slice M)}
    {out : List (Slice M)} (hmix : ∀ l, (mix l).Perm l) (hd : Drawn layers models weights draw) (h : fullRandom models layers weights draw mix = .ok out)
    {m : M} (hf : ∀ (i : Nat) (f : K), models[i]? = some m → weights[i]? = some f → f < 1) (hn : 0 < layers m) :
    ∀ s ∈ out, s.model = m → s.start ≠ layers m - 1 := by
  intro s hs hm he
  cases models with
  | nil => exact absurd h (by simp [fullRandom])
  | cons m0 ms =>
    cases h
    obtain ⟨j, m', f, c, hj, hw, hc, rfl⟩ := randomFrom_mem ((hmix _).mem_iff.mp hs)
    simp only at hm he
    subst hm
    rw [Nat.zero_add] at he
    have h1 := hd j m' f hj hw c (by omega)
    have hlt : drawn layers m' f < layers m' := by
      rw [drawn, intCount, Int.toNat_lt_of_ne_zero (by omega), Int.floor_lt]
      have hp : (0 : K) < layers m' := by exact_mod_cast hn
      have := hf j f hj hw
      push_cast
      nlinarith
    rw [drawn] at hlt h1
    omega

/-- C77: with weights from zero to one only layers the model has are used: below the number of layers taken. -/
theorem C77_existing_layers_partial {models : List M} {layers : M → Nat} {weights : List K} {draw : Nat → Nat → Nat}
    {mix : List (Slice M) → List (Slice M)} {out : List (Slice M)} (hmix : ∀ l, (mix l).Perm l) (hd : Drawn layers models weights draw)
    (hw : ∀ f ∈ weights, f ≤ 1) (h : fullRandom models layers weights draw mix = .ok out) :
    ∀ s ∈ out, s.start < layers s.model := by
  intro s hs
  cases models with
  | nil => exact absurd h (by simp [fullRandom])
  | cons m0 ms =>
    cases h
    obtain ⟨j, m', f, c, hj, hf, hc, rfl⟩ := randomFrom_mem ((hmix _).mem_iff.mp hs)
    have h1 := hd j m' f hj hf c (by omega)
    have hle : drawn layers m' f ≤ layers m' := by
      rw [drawn, intCount, Int.toNat_le]
      have hp : (0 : K) ≤ layers m' := by exact_mod_cast Nat.zero_le _
      have h2 := hw f (List.mem_of_getElem? hf)
      have h3 : (layers m' : K) * f ≤ layers m' := by nlinarith
      exact_mod_cast (Int.floor_le _).trans h3
    simp only [Nat.zero_add]
    omega

/-- C77: and each layer below that number can come up. -/
theorem C77_reachable_partial {layers : M → Nat} {m : M} {f : K} {l : Nat} (hl : l < drawn layers m f) :
    ∃ (draw : Nat → Nat → Nat) (out : List (Slice M)), Drawn layers [m] [f] draw ∧
      fullRandom [m] layers [f] draw id = .ok out ∧ { model := m, start := l, stop := l + 1 } ∈ out := by
  refine ⟨fun _ _ => l, _, ?_, rfl, ?_⟩
  · intro i m' f' hm hf j _
    cases i with
    | zero => cases hm; cases hf; exact hl
    | succ i => simp at hm
  · rw [id, randomFrom, List.mem_append]
    exact Or.inl (List.mem_map.mpr ⟨0, List.mem_range.mpr (by rw [drawn] at hl; omega), rfl⟩)

/-- C77, refuted: a weight that takes more layers than there are can pick a layer that does not exist. -/
theorem C77_beyond {layers : M → Nat} {m : M} {f : K} (hf : layers m < drawn layers m f) :
    ∃ (draw : Nat → Nat → Nat) (out : List (Slice M)), Drawn layers [m] [f] draw ∧
      fullRandom [m] layers [f] draw id = .ok out ∧ ∃ s ∈ out, ¬ s.start < layers s.model := by
  obtain ⟨draw, out, hd, ho, hs⟩ := C77_reachable_partial hf
  exact ⟨draw, out, hd, ho, _, hs, by simp⟩

/-- C77, refuted: a model without a weight is left out, and without weights nothing is left. -/
theorem C77_unweighted {models : List M} {layers : M → Nat} {weights : List K} {draw : Nat → Nat → Nat} {mix : List (Slice M) → List (Slice M)}
    {out : List (Slice M)} (hmix : ∀ l, (mix l).Perm l) (h : fullRandom models layers weights draw mix = .ok out) :
    ∀ s ∈ out, s.model ∈ models.take weights.length := by
  intro s hs
  cases models with
  | nil => exact absurd h (by simp [fullRandom])
  | cons m0 ms =>
    cases h
    obtain ⟨j, m', f, c, hj, hf, hc, rfl⟩ := randomFrom_mem ((hmix _).mem_iff.mp hs)
    have hlt : j < weights.length := (List.getElem?_eq_some_iff.mp hf).1
    exact List.mem_of_getElem? (by rw [List.getElem?_take_of_lt hlt]; exact hj)

/-- Eight layers, weight one half: four layers out of the first four. -/
example : fullRandom [10, 20] (fun _ => 8) [(1 / 2 : ℚ), 1 / 4] (fun i j => if i = 0 then j else 1) id =
    .ok [⟨10, 0, 1⟩, ⟨10, 1, 2⟩, ⟨10, 2, 3⟩, ⟨10, 3, 4⟩, ⟨20, 1, 2⟩, ⟨20, 1, 2⟩] := by decide +kernel

example : Drawn (fun _ => 8) [10, 20] [(1 / 2 : ℚ), 1 / 4] (fun i j => if i = 0 then j % 4 else 1) := by
  intro i m f hm hf j _
  have h4 : drawn (fun _ : Nat => 8) 10 (1 / 2 : ℚ) = 4 := by decide +kernel
  have h2 : drawn (fun _ : Nat => 8) 20 (1 / 4 : ℚ) = 2 := by decide +kernel
  rcases i with _ | _ | i
  · cases hf; cases hm; rw [h4]; exact Nat.mod_lt _ (by decide)
  · cases hf; cases hm; rw [h2]; simp
  · simp at hm

example : (fun _ : Nat => 8) 10 < drawn (fun _ => 8) 10 (3 / 2 : ℚ) := by decide +kernel

example : fullRandom [10] (fun _ => 8) ([] : List ℚ) (fun _ _ => 0) id = .ok [] := by decide +kernel

/-! ## Legacy options -/

theorem assign_ok {set : Entry K → K → Entry K} {es es' : List (Entry K)} {vs : List K} (h : assign set es vs = .ok es') :
    vs.length ≤ es.length ∧ es'.length = es.length ∧
      ∀ (i : Nat) (e : Entry K), es[i]? = some e → es'[i]? = some (match vs[i]? with | some v => set e v | none => e) := by
  induction es generalizing vs es' with
  | nil =>
    cases vs with
    | nil => cases h; simp
    | cons v vs => exact absurd h (by simp [assign])
  | cons e es ih =>
    cases vs with
    | nil =>
      cases h
      refine ⟨by simp, rfl, ?_⟩
      intro i e' he
      simpa using he
    | cons v vs =>
      rw [assign] at h
      cases ha : assign set es vs with
      | error x => rw [ha] at h; exact absurd h (by simp [Except.map])
      | ok r =>
        rw [ha] at h
        cases h
        obtain ⟨h1, h2, h3⟩ := ih ha
        refine ⟨by simpa using h1, by simp [h2], ?_⟩
        intro i e' he
        cases i with
        | zero => simp at he; simp [he]
        | succ i => simp at he ⊢; exact h3 i e' he

theorem assign_total {set : Entry K → K → Entry K} {es : List (Entry K)} {vs : List K} (h : vs.length ≤ es.length) :
    ∃ es', assign set es vs = .ok es' := by
  induction es generalizing vs with
  | nil => cases vs with
    | nil => exact ⟨_, rfl⟩
    | cons v vs => simp at h
  | cons e es ih => cases vs with
    | nil => exact ⟨_, rfl⟩
    | cons v vs =>
      obtain ⟨r, hr⟩ := ih (by simpa using h : vs.length ≤ es.length)
      exact ⟨_, by rw [assign, hr]; rfl⟩

/-- The models a legacy command merges: those listed, then the base model unless it is listed. -/
def listed (merge : List Str) : Option Str → List Str
  | some b => if b = [] ∨ b ∈ merge then merge else merge ++ [b]
  | none => merge

/-- The value of an option for the model in position `i`: a single value is for all, otherwise values go by position. -/
def valueAt (vs : List K) (i : Nat) : Option K :=
  match vs with
  | [v] => some v
  | vs => vs[i]?

/-- Values given in a way that can be used: one, or not more than there are models. -/
def fits (n : Nat) (vs : List K) : Prop := vs.length = 1 ∨ vs.length ≤ n

theorem broadcast_at (n : Nat) (vs : List K) (i : Nat) (hi : i < n) : (broadcast n vs)[i]? = valueAt vs i := by
  rcases vs with _ | ⟨v, _ | ⟨v', vs⟩⟩
  · rfl
  · simp only [broadcast, valueAt]; rw [List.getElem?_replicate, if_pos hi]
  · rfl

theorem broadcast_length (n : Nat) (vs : List K) : (broadcast n vs).length ≤ n ↔ fits n vs := by
  rcases vs with _ | ⟨v, _ | ⟨v', vs⟩⟩
  · simp [broadcast, fits]
  · simp [broadcast, fits]
  · simp [broadcast, fits]

theorem startModels (merge : List Str) (base : Option Str) :
    legacyModels merge base = (listed merge base).map (fun m => ({ model := m } : Entry K)) := by
  cases base with
  | none => rfl
  | some b =>
    simp only [listed, legacyModels]
    by_cases hb : b = [] ∨ b ∈ merge
    · rw [if_pos hb, if_neg]
      rintro ⟨h1, h2⟩
      exact hb.elim h1 h2
    · rw [if_neg hb, if_pos (not_or.mp hb)]; simp

/-- What the configuration of a legacy command must look like. -/
def Faithful (merge : List Str) (base : Option Str) (density weight : List K) (slerp : Bool) (c : Legacy K) : Prop :=
  c.base = base ∧ c.models.length = (listed merge base).length ∧
    (∀ (i : Nat) (m : Str), (listed merge base)[i]? = some m →
      c.models[i]? = some { model := m, density := valueAt density i, weight := if slerp then none else valueAt weight i }) ∧
    (if slerp then ∃ w, weight = [w] ∧ c.t = some w else c.t = none)

/-- C78: the configuration a legacy command merges lists its models in order, the base model last unless it is among them; each has the density and
the weight given for it by position, or the only one given; for slerp the only weight is the interpolation parameter. -/
theorem C78_faithful {merge : List Str} {base : Option Str} {density weight : List K} {slerp : Bool} {c : Legacy K}
    (h : legacy merge base density weight slerp = .ok c) : Faithful merge base density weight slerp c := by
  rw [legacy, startModels] at h
  split at h
  · exact absurd h (by simp)
  · rename_i ms hms
    obtain ⟨_, hl, hv⟩ := assign_ok hms
    rw [List.length_map] at hl
    have hd : ∀ (i : Nat) (m : Str), (listed merge base)[i]? = some m → ms[i]? = some { model := m, density := valueAt density i } := by
      intro i m hi
      have hlt := (List.getElem?_eq_some_iff.mp hi).1
      rw [hv i { model := m } (by rw [List.getElem?_map, hi]; rfl), broadcast_at _ _ _ (by rw [List.length_map]; exact hlt)]
      cases valueAt density i <;> rfl
    unfold legacyWeights at h
    split at h
    · rename_i hs
      split at h
      · cases h
        refine ⟨rfl, hl, ?_, ?_⟩
        · intro i m hi; rw [if_pos hs]; exact hd i m hi
        · rw [if_pos hs]; exact ⟨_, rfl, rfl⟩
      · exact absurd h (by simp)
    · rename_i hs
      split at h
      · exact absurd h (by simp)
      · rename_i ms' hms'
        cases h
        obtain ⟨_, hl', hv'⟩ := assign_ok hms'
        refine ⟨rfl, by rw [hl', hl], ?_, by rw [if_neg hs]⟩
        intro i m hi
        have hlt := (List.getElem?_eq_some_iff.mp hi).1
        simp only
        rw [hv' i _ (hd i m hi), broadcast_at _ _ _ (by rw [hl]; exact hlt), if_neg hs]
        cases valueAt weight i <;> rfl

/-- C78: a legacy command gets as far as a configuration exactly if there are not more densities or weights than models (or a single one), and for
slerp exactly one weight. -/
theorem C78_accepted {merge : List Str} {base : Option Str} {density weight : List K} {slerp : Bool} :
    (∃ c, legacy merge base density weight slerp = .ok c) ↔
      fits (listed merge base).length density ∧ if slerp then weight.length = 1 else fits (listed merge base).length weight := by
  rw [legacy, startModels]
  constructor
  · rintro ⟨c, h⟩
    split at h
    · exact absurd h (by simp)
    · rename_i ms hms
      obtain ⟨hle, hl, _⟩ := assign_ok hms
      rw [broadcast_length, List.length_map] at hle
      refine ⟨hle, ?_⟩
      unfold legacyWeights at h
      split at h
      · rename_i hs
        rw [if_pos hs]
        split at h
        · rfl
        · exact absurd h (by simp)
      · rename_i hs
        rw [if_neg hs]
        split at h
        · exact absurd h (by simp)
        · rename_i ms' hms'
          obtain ⟨hle', _, _⟩ := assign_ok hms'
          rw [broadcast_length, hl, List.length_map] at hle'
          exact hle'
  · rintro ⟨hd, hw⟩
    obtain ⟨ms, hms⟩ := assign_total (set := fun e d => { e with density := some d })
      (es := (listed merge base).map (fun m => ({ model := m } : Entry K)))
      (vs := broadcast ((listed merge base).map (fun m => ({ model := m } : Entry K))).length density)
      (by rw [broadcast_length, List.length_map]; exact hd)
    rw [hms]
    simp only [legacyWeights]
    split at hw
    · rename_i hs
      rw [if_pos hs]
      obtain ⟨w, rfl⟩ := List.length_eq_one_iff.mp hw
      exact ⟨_, rfl⟩
    · rename_i hs
      rw [if_neg hs]
      obtain ⟨_, hl, _⟩ := assign_ok hms
      obtain ⟨ms', hms'⟩ := assign_total (set := fun e w => { e with weight := some w }) (es := ms) (vs := broadcast ms.length weight)
        (by rw [broadcast_length, hl, List.length_map]; exact hw)
      rw [hms']
      exact ⟨_, rfl⟩

example : legacy [cs!"a", cs!"b"] (some cs!"c") [(1 / 2 : ℚ)] [1, 2] false =
    .ok { models := [⟨cs!"a", some (1 / 2), some 1⟩, ⟨cs!"b", some (1 / 2), some 2⟩, ⟨cs!"c", some (1 / 2), none⟩], base := some cs!"c" } := by
  decide +kernel

example : legacy [cs!"a", cs!"b"] (some cs!"a") [] [(1 / 3 : ℚ)] true =
    .ok { models := [⟨cs!"a", none, none⟩, ⟨cs!"b", none, none⟩], t := some (1 / 3), base := some cs!"a" } := by
  decide +kernel

example : legacy [cs!"a"] none [] [(1 / 3 : ℚ), 2] false = .error .index := by decide +kernel

end Verif.Scripts
